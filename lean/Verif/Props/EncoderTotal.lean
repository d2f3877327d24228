import Verif.Props.BmpRoundtrip
import Verif.Props.Tga
import Verif.Model.Farbfeld
import Verif.Model.PnmEncoder
import Verif.Props.HdrRoundtrip
import Verif.Props.JpegFindings
import Verif.Model.Ico

/-!
# C111: encoders return

An encoder that is given a buffer of the length that the image has returns, with a file or with an error.
-/

namespace Verif
namespace EncoderTotal

/-! ## Specification -/

/-- The call returns, with `Ok` or with `Err`. -/
def Returns {α : Type} (x : R α) : Prop := (∃ a, x = .ok a) ∨ ∃ e, x = errR e

/-- The bytes of an image of `w` by `h` pixels of colour type `c`: rows of whole bytes. `u32` dimensions, an address space of
64 bits, and `Unknown(n)` has at most 255 bits. -/
structure Buffer (c : ExtendedColorType) (w h : Nat) (buf : List UInt8) : Prop where
  width : w < 2 ^ 32
  height : h < 2 ^ 32
  bits : c.bitsPerPixel < 2 ^ 8
  length : buf.length = (w * c.bitsPerPixel + 7) / 8 * h
  addressable : buf.length < 2 ^ 64

/-! ## Tools -/

theorem Returns.okOr {α : Type} {x : R α} : Returns x ↔ OkOr (fun _ => True) (fun _ => True) x := by
  constructor
  · rintro (⟨a, rfl⟩ | ⟨e, rfl⟩) <;> trivial
  · intro h
    cases x with
    | ok a => exact .inl ⟨a, rfl⟩
    | error e => cases e with
      | panic => exact absurd h id
      | err e => exact .inr ⟨e, rfl⟩

theorem Returns.ok {α : Type} (a : α) : Returns (.ok a : R α) := .inl ⟨a, rfl⟩
theorem Returns.err {α : Type} (e : Err) : Returns (errR e : R α) := .inr ⟨e, rfl⟩

theorem Returns.bind {α β : Type} {x : R α} {f : α → R β} (hx : Returns x) (hf : ∀ a, x = .ok a → Returns (f a)) :
    Returns (x >>= f) := by
  rcases hx with ⟨a, rfl⟩ | ⟨e, rfl⟩
  · exact hf a rfl
  · exact .inr ⟨e, rfl⟩

theorem returns_mapM {α β : Type} {f : α → R β} : ∀ {l : List α}, (∀ a ∈ l, Returns (f a)) → Returns (l.mapM f)
  | [], _ => .ok _
  | a :: l, h => by
    rw [List.mapM_cons]
    exact (h a (by simp)).bind fun _ _ => (returns_mapM fun b hb => h b (by simp [hb])).bind fun _ _ => .ok _

theorem returns_forRangeRev {σ : Type} {n : Nat} {f : Nat → σ → R σ} {s : σ} (h : ∀ i, i < n → ∀ s, Returns (f i s)) :
    Returns (forRangeRev n f s) := by
  induction n generalizing s with
  | zero => exact .ok _
  | succ n ih => exact (h n (by omega) s).bind fun _ _ => ih fun i hi => h i (by omega)

theorem returns_forRange {σ : Type} {n : Nat} {f : Nat → σ → R σ} {s : σ} (h : ∀ i, i < n → ∀ s, Returns (f i s)) :
    Returns (forRange n f s) := by
  induction n with
  | zero => exact .ok _
  | succ n ih => rw [forRange_succ]; exact (ih fun i hi => h i (by omega)).bind fun s _ => h n (by omega) s

theorem Buffer.size {c : ExtendedColorType} {w h : Nat} {buf : List UInt8} (hb : Buffer c w h buf) :
    c.bufferSize w h = .ok buf.length := by
  have h1 : w * c.bitsPerPixel ≤ 2 ^ 32 * 2 ^ 8 := Nat.mul_le_mul (by have := hb.width; omega) (by have := hb.bits; omega)
  have h2 := hb.addressable
  unfold ExtendedColorType.bufferSize
  rw [mulC_ok (by omega), ok_bind, addC_ok (by omega), ok_bind]
  unfold satMul
  dsimp only
  rw [← hb.length, Nat.min_eq_left (by omega)]

theorem Buffer.bytes {c : ExtendedColorType} {w h n : Nat} {buf : List UInt8} (hb : Buffer c w h buf) (hc : c.bitsPerPixel = 8 * n) :
    buf.length = w * n * h := by
  rw [hb.length, hc, show w * (8 * n) = 8 * (w * n) by rw [Nat.mul_left_comm], show (8 * (w * n) + 7) / 8 = w * n by omega]

/-! ## farbfeld, TGA -/

/-- **C111: the farbfeld encoder returns.** -/
theorem C111_farbfeld (le : Bool) (c : ExtendedColorType) (w h : Nat) (buf : List UInt8) (hb : Buffer c w h buf) :
    Returns (Farbfeld.writeImage le buf w h c) := by
  unfold Farbfeld.writeImage
  split
  · exact .err _
  · rename_i hc
    obtain rfl : c = .Rgba16 := Classical.not_not.mp hc
    have hl := hb.bytes (n := 8) rfl
    have := hb.addressable
    unfold Farbfeld.encode
    rw [show (satMul 64 (w * h) 8 == buf.length) = true by
      rw [beq_iff_eq, satMul, Nat.mul_right_comm, ← hl, Nat.min_eq_left (by omega)], assertR_true, ok_bind]
    exact .ok _

theorem toBgr_returns {c : ExtendedColorType} {w h : Nat} {buf : List UInt8} (hb : Buffer c w h buf) :
    ∃ l, Tga.toBgr c buf = .ok l ∧ l.length = buf.length := by
  have aux : ∀ n, 3 ≤ n → buf.length = w * n * h → ∃ l, Tga.swapPixels n buf = .ok l ∧ l.length = buf.length := by
    intro n hn hl
    have hl' : buf.length = w * h * n := by rw [hl, Nat.mul_right_comm]
    refine ⟨_, Tga.swapPixels_ok hn hl', ?_⟩
    obtain ⟨g1, g2, g3⟩ := chunksOf_eq (show 0 < n by omega) hl'
    conv => rhs; rw [← g1]
    rw [List.length_flatten, List.length_flatten, List.map_map]
    congr 1
    refine List.map_congr_left fun p hp => ?_
    have := g2 p hp
    match p, this with
    | [], h => simp at h; omega
    | [_], h => simp at h; omega
    | [_, _], h => simp at h; omega
    | _ :: _ :: _ :: _, _ => rfl
  cases c
  case Rgb8 => exact aux 3 (by omega) (hb.bytes rfl)
  case Rgba8 => exact aux 4 (by omega) (hb.bytes rfl)
  all_goals exact ⟨buf, rfl, rfl⟩

/-- **C111: the TGA encoder returns**, with and without compression. -/
theorem C111_tga (rle : Bool) (c : ExtendedColorType) (w h : Nat) (buf : List UInt8) (hb : Buffer c w h buf) :
    Returns (Tga.encode rle buf w h c) := by
  unfold Tga.encode
  rw [hb.size, ok_bind, show (buf.length == buf.length) = true from by simp, assertR_true, ok_bind]
  split
  · exact .err _
  split
  · exact .err _
  unfold Tga.Header.fromPixelInfo
  obtain ⟨l, hl, hn⟩ := toBgr_returns hb
  split
  · cases hp : Tga.pixelInfo c rle with
    | none => exact .err _
    | some p =>
      obtain ⟨alpha, other, ty⟩ := p
      dsimp only
      rw [ok_bind, hl, ok_bind]
      have hbpp : ∃ n, c.bitsPerPixel = 8 * n ∧ 0 < n := by
        cases c <;> first | exact ⟨1, rfl, by decide⟩ | exact ⟨2, rfl, by decide⟩ | exact ⟨3, rfl, by decide⟩ | exact ⟨4, rfl, by decide⟩ |
          (cases rle <;> cases hp)
      obtain ⟨n, h1, h2⟩ := hbpp
      have h3 : c.bitsPerPixel / 8 = n := by omega
      obtain ⟨out, ho, -⟩ := Tga.runLengthEncode_ok (color := c) (k := w * h) (image := l) (by omega)
        (by rw [hn, hb.bytes h1, h3, Nat.mul_right_comm])
      split
      · rw [ho]; exact .ok _
      · rw [ho]; exact .ok _
      · exact .ok _
  · rw [ok_bind, hl, ok_bind]
    exact .ok _

/-! ## PNM -/

theorem pnm_checkColor (hd : Pnm.Header) (c : ExtendedColorType) : Returns (Pnm.checkHeaderColor hd c) := by
  unfold Pnm.checkHeaderColor
  dsimp only
  repeat' split
  all_goals first | exact .ok _ | exact .err _

theorem pnm_maxSample (c : ExtendedColorType) : Returns (Pnm.maxSample c) := by
  unfold Pnm.maxSample
  split <;> first | exact .ok _ | exact .err _ | (split; exact .ok _; exact .err _)

theorem pnm_checkBuffer (image : Pnm.Samples) (w h : Nat) (c : ExtendedColorType) : Returns (Pnm.checkBuffer image w h c) := by
  unfold Pnm.checkBuffer
  dsimp only
  split
  · exact .err _
  · exact .ok _

theorem pnm_writeWithHeader {hd : Pnm.Header} {buf : List UInt8} {w h : Nat} {c : ExtendedColorType} (hb : Buffer c w h buf)
    (hw : c = .L1 → 0 < w ∨ ∀ y x, hd ≠ .bitmap .binary y x) : Returns (Pnm.writeWithHeader hd (.u8 buf) w h c) := by
  unfold Pnm.writeWithHeader
  refine Returns.bind (by unfold Pnm.checkHeaderDimensions; split; exact .err _; exact .ok _) fun _ h0 => ?_
  refine Returns.bind (pnm_checkColor _ _) fun _ h1 => ?_
  refine Returns.bind ?_ fun _ h2 => ?_
  · unfold Pnm.checkSampleValues
    refine Returns.bind (pnm_maxSample _) fun _ _ => ?_
    split
    · exact .err _
    · exact pnm_checkBuffer _ _ _ _
  refine Returns.bind ?_ fun _ _ => .ok _
  unfold Pnm.writeRaster
  cases hd with
  | bitmap e y x =>
    cases e with
    | ascii => exact .ok _
    | binary =>
      have hx : x = w := by
        unfold Pnm.checkHeaderDimensions at h0
        split at h0
        · cases h0
        · rename_i hn
          have : ¬ (x ≠ w ∨ y ≠ h) := hn
          omega
      have hpos : 0 < w := by
        refine Nat.pos_of_ne_zero fun hz => ?_
        subst hz
        have hnil : c ≠ .L1 → c.bitsPerPixel = 8 ∨ c.bitsPerPixel = 16 → buf = [] := by
          intro _ _
          have := hb.length
          rw [Nat.zero_mul, show (0 + 7) / 8 * h = 0 by simp] at this
          exact List.eq_nil_of_length_eq_zero this
        cases c
        case L1 =>
          rcases hw rfl with h | h
          · omega
          · exact h _ _ rfl
        case L8 => obtain rfl := hnil (by decide) (.inl rfl); exact absurd h2 (by unfold Pnm.checkSampleValues; nofun)
        case L16 => obtain rfl := hnil (by decide) (.inr rfl); exact absurd h2 (by unfold Pnm.checkSampleValues; nofun)
        all_goals exact absurd h1 (by unfold Pnm.checkHeaderColor; nofun)
      dsimp only
      unfold Pnm.writePbmBits
      rw [subC_ok (by omega), ok_bind]
      exact .ok _
  | graymap e y x m => cases e <;> exact .ok _
  | pixmap e y x m => cases e <;> exact .ok _
  | arbitrary => exact .ok _

/-- The header is chosen by the encoder, or it is not that of a packed bitmap (`P4`). -/
def NotPacked : Pnm.Strategy → Prop
  | .subtype (.bitmap .binary) => False
  | .chosen (.bitmap .binary _ _) => False
  | _ => True

/-- **C111: the PNM encoder returns**, for every way to choose the header, except for packed bitmaps of `L1` without columns. -/
theorem C111_pnm_partial (s : Pnm.Strategy) (c : ExtendedColorType) (w h : Nat) (buf : List UInt8) (hb : Buffer c w h buf)
    (hw : c = .L1 → 0 < w ∨ NotPacked s) : Returns (Pnm.writeImage s buf w h c) := by
  unfold Pnm.writeImage
  rw [hb.size, ok_bind, show (buf.length == buf.length) = true from by simp, assertR_true, ok_bind]
  have dyn : Returns (Pnm.writeDynamicHeader (.u8 buf) w h c) := by
    unfold Pnm.writeDynamicHeader
    refine Returns.bind (by unfold Pnm.dynamicTuple; split <;> first | exact .ok _ | exact .err _) fun p _ => ?_
    exact pnm_writeWithHeader hb fun _ => .inr nofun
  unfold Pnm.encode
  cases s with
  | dynamic => exact dyn
  | subtype s =>
    dsimp only
    unfold Pnm.writeSubtypedHeader
    split
    · exact dyn
    · exact pnm_writeWithHeader hb fun _ => .inr nofun
    · exact pnm_writeWithHeader hb fun _ => .inr nofun
    · exact pnm_writeWithHeader hb nofun
    · refine pnm_writeWithHeader hb fun hc => (hw hc).imp id ?_
      rintro h y x ⟨⟩
      exact h
    · exact .err _
  | chosen hd =>
    refine pnm_writeWithHeader hb fun hc => (hw hc).imp id ?_
    rintro h y x rfl
    exact h

/-- **C111 is false for packed bitmaps without columns**: the encoder panics for an image of 0 by 3 pixels. -/
theorem C111_pnm_false : Buffer .L1 0 3 [] ∧ Pnm.writeImage (.subtype (.bitmap .binary)) [] 0 3 .L1 = panicR :=
  ⟨⟨by decide, by decide, by decide, by decide, by decide⟩, by decide +kernel⟩

/-! ## BMP -/

theorem slice_returns {image : List UInt8} {start len : Nat} (h : start + len ≤ image.length) : 
    Bmp.slice image start len = .ok ((image.drop start).take len) := by
  unfold Bmp.slice
  rw [if_pos h]

theorem row_le {row h n : Nat} (hr : row < h) : row * n + n ≤ n * h := by
  have : (row + 1) * n ≤ h * n := Nat.mul_le_mul_right _ hr
  rw [Nat.add_mul, Nat.one_mul] at this
  rw [Nat.mul_comm n h]; exact this

theorem bmp_color {px : List UInt8 → R (List UInt8)} {image : List UInt8} {w h pad bpp : Nat} (hl : image.length = w * bpp * h)
    (hpx : ∀ p, p.length = bpp → Returns (px p)) (hb : 0 < bpp) : Returns (Bmp.encodeColor px image w h pad bpp) := by
  unfold Bmp.encodeColor Bmp.encodeRows
  refine returns_forRangeRev fun row hr s => ?_
  refine Returns.bind ?_ fun _ _ => .ok _
  have hle := row_le (n := w * bpp) hr
  dsimp only
  rw [slice_returns (by omega), ok_bind]
  refine Returns.bind (returns_mapM fun p hp => hpx p ?_) fun _ _ => .ok _
  have hlen : ((image.drop (row * (w * bpp))).take (w * bpp)).length = w * bpp := by
    rw [List.length_take, List.length_drop]; omega
  rw [Bmp.chunksExact_eq_chunksOf hb hlen] at hp
  exact (chunksOf_eq hb hlen).2.1 p hp

theorem bmp_gray {image : List UInt8} {w h pad bpp : Nat} {pal : Option (List Bmp.Rgb)} (hl : image.length = w * bpp * h)
    (hb : bpp = 1 ∨ bpp = 2) (h1 : w * bpp < 2 ^ 32) (h2 : image.length ≤ 2 ^ 32) : Returns (Bmp.encodeGray image w h pad bpp pal) := by
  unfold Bmp.encodeGray Bmp.encodeRows
  rw [mulC_ok h1, ok_bind]
  refine Returns.bind (returns_forRangeRev fun row hr s => ?_) fun _ _ => .ok _
  refine Returns.bind ?_ fun _ _ => .ok _
  have hle := row_le (n := w * bpp) hr
  dsimp only
  by_cases hz : w = 0
  · subst hz
    rw [mulC_ok (by simp), ok_bind]
    split
    · rw [slice_returns (by simp)]; exact .ok _
    · exact .ok _
  have hp : 0 < w * bpp := Nat.mul_pos (by omega) (by omega)
  rw [mulC_ok (by omega), ok_bind]
  split
  · rw [slice_returns (by omega)]; exact .ok _
  · obtain rfl : bpp = 2 := by omega
    refine returns_forRange fun col hcol s => ?_
    rw [mulC_ok (by omega), ok_bind, addC_ok (by omega), ok_bind, List.getElem?_eq_getElem (by omega)]
    exact .ok _

/-- The sizes for which the arithmetic of the BMP encoder does not overflow: lines of less than 4 GiB, and an image with an
alpha channel of at most 4 GiB. -/
structure BmpSize (c : ExtendedColorType) (w h : Nat) : Prop where
  width : w < 2 ^ 30
  height : h < 2 ^ 30
  grey : c = .La8 → w * 2 * h ≤ 2 ^ 32

theorem bmp_returns {c : ExtendedColorType} {w h : Nat} {buf : List UInt8} (hb : Buffer c w h buf) (hs : BmpSize c w h)
    (pal : Option (List Bmp.Rgb)) (hp : ∀ p, pal = some p → p.length < 2 ^ 30) : Returns (Bmp.encodeWithPalette buf w h c pal) := by
  unfold Bmp.encodeWithPalette
  split
  · exact .err _
  rw [hb.size, ok_bind, show (buf.length == buf.length) = true from by simp, assertR_true, ok_bind]
  have hcol : (match pal with | some p => p.length | none => 256) % 2 ^ 32 < 2 ^ 30 := by
    cases pal with
    | none => decide
    | some p => have := hp p rfl; dsimp only; omega
  have hwlt := hs.width
  have hhlt := hs.height
  -- what follows the choice of the format
  have rest : ∀ dib px colors, px ≤ 4 → colors < 2 ^ 30 → Bmp.pixelInfo c pal = .ok (dib, px, colors) →
      (∀ pad, w * h * px < 2 ^ 32 → Returns (Bmp.encodeData buf w h pad c pal)) →
      Returns (Bmp.pixelInfo c pal >>= fun (dib, px, colors) => do
        let rowBytes ← mulC 32 w px
        let pad := (4 - rowBytes % 4) % 4
        match (checkedMul 32 w h).bind fun v => checkedMul 32 v px with
        | none => errR .dimensionMismatch
        | some v => do
          let padding ← mulC 32 h pad
          match checkedAdd 32 v padding with
          | none => errR .dimensionMismatch
          | some imageSize => do
            let paletteSize ← mulC 32 colors 4
            match (checkedAdd 32 14 dib).bind fun v => (checkedAdd 32 v paletteSize).bind fun v => checkedAdd 32 v imageSize with
            | none => errR .encoding
            | some fileSize => do
              let data ← Bmp.encodeData buf w h pad c pal
              .ok (Bmp.headerBytes fileSize dib w h px imageSize colors ++ data)) := by
    intro dib px colors hpx hc he hd
    rw [he, ok_bind]
    dsimp only
    have : w * px ≤ w * 4 := Nat.mul_le_mul_left _ hpx
    rw [mulC_ok (by omega), ok_bind]
    generalize hpad : (4 - w * px % 4) % 4 = pad
    have hpad4 : pad < 4 := by omega
    split
    · exact .err _
    · rename_i v hv
      have hv' : w * h * px < 2 ^ 32 := by
        unfold checkedMul at hv
        split at hv
        · simp only [Option.bind_some] at hv
          split at hv
          · assumption
          · cases hv
        · cases hv
      have : h * pad ≤ h * 3 := Nat.mul_le_mul_left _ (by omega)
      rw [mulC_ok (by omega), ok_bind]
      split
      · exact .err _
      · rw [mulC_ok (by omega), ok_bind]
        split
        · exact .err _
        · exact (hd pad hv').bind fun _ _ => .ok _
  cases hc : c
  case Rgb8 =>
    subst hc
    refine rest _ _ _ (by decide) (by decide) rfl fun pad hv => ?_
    refine bmp_color (hb.bytes rfl) (fun p hp => ?_) (by omega)
    match p, hp with
    | [_, _, _], _ => exact .ok _
  case Rgba8 =>
    subst hc
    refine rest _ _ _ (by decide) (by decide) rfl fun pad hv => ?_
    refine bmp_color (hb.bytes rfl) (fun p hp => ?_) (by omega)
    match p, hp with
    | [_, _, _, _], _ => exact .ok _
  case L8 =>
    subst hc
    refine rest _ _ _ (by decide) hcol rfl fun pad hv => ?_
    have := hb.bytes (n := 1) rfl
    exact bmp_gray this (.inl rfl) (by omega) (by rw [this, Nat.mul_one]; omega)
  case La8 =>
    subst hc
    refine rest _ _ _ (by decide) hcol rfl fun pad hv => ?_
    have := hb.bytes (n := 2) rfl
    exact bmp_gray this (.inr rfl) (by omega) (by rw [this]; exact hs.grey rfl)
  all_goals exact .err _

/-- **C111: the BMP encoder returns** for images whose sides are below 2^30 (below 2^31 pixels with an alpha channel). -/
theorem C111_bmp_partial (c : ExtendedColorType) (w h : Nat) (buf : List UInt8) (hb : Buffer c w h buf) (hs : BmpSize c w h) :
    Returns (Bmp.encode buf w h c) :=
  bmp_returns hb hs none (by simp)

/-- **C111: the BMP encoder returns when it is given a palette** of less than 2^30 colours. -/
theorem C111_bmp_palette_partial (c : ExtendedColorType) (w h : Nat) (buf : List UInt8) (hb : Buffer c w h buf) (hs : BmpSize c w h)
    (p : List Bmp.Rgb) (hp : p.length < 2 ^ 30) : Returns (Bmp.encodeWithPalette buf w h c (some p)) :=
  bmp_returns hb hs _ (by rintro _ ⟨⟩; exact hp)

/-- **C111 is false for very wide BMP images**, even when they are empty: the encoder panics for 2^31 by 0 pixels. -/
theorem C111_bmp_false : Buffer .Rgb8 (2 ^ 31) 0 [] ∧ Bmp.encode [] (2 ^ 31) 0 .Rgb8 = panicR :=
  ⟨⟨by decide, by decide, by decide, by decide, by decide⟩, by decide +kernel⟩

/-! ## HDR -/

theorem fmax_inf {a b : Fl} (ha : a ≠ .inf false) (hb : b ≠ .inf false) : Fl.fmax a b ≠ .inf false := by
  unfold Fl.fmax
  split
  · exact hb
  · exact ha
  · split
    · exact hb
    · exact ha

/-- The logarithms of finite numbers that the encoder may see fit an `i32`. -/
def LogFits (lg : ℚ → ℤ) : Prop := ∀ q, lg q < 2 ^ 31 - 1

theorem toRgbe8_returns {lg : ℚ → ℤ} (hlg : LogFits lg) {p : Hdr.RgbF} (hr : p.r ≠ .inf false) (hg : p.g ≠ .inf false) (hb : p.b ≠ .inf false) :
    ∃ q, Hdr.toRgbe8 lg p = .ok q := by
  unfold Hdr.toRgbe8
  dsimp only
  split
  · exact ⟨_, rfl⟩
  · rename_i hle
    rw [if_pos]
    · exact ⟨_, rfl⟩
    · have hne := fmax_inf hr (fmax_inf hg hb)
      cases hm : Fl.fmax p.r (Fl.fmax p.g p.b) with
      | nan => show (0 : ℤ) + 1 < 2 ^ 31; decide
      | inf n =>
        cases n with
        | false => exact absurd hm hne
        | true => rw [hm] at hle; exact absurd (by decide) hle
      | fin q => have := hlg q; show lg q + 1 < 2 ^ 31; omega

theorem rleCompress_returns (d : List UInt8) : ∃ c, Hdr.rleCompress d = .ok c := by
  by_cases h : d = []
  · subst h; exact ⟨_, rfl⟩
  · obtain ⟨c, h, -⟩ := Hdr.rleCompress_spec d h; exact ⟨c, h⟩

theorem encodePixels_returns {px : List Hdr.Rgbe} {w h : Nat} (hl : px.length = w * h) (h64 : px.length < 2 ^ 64) :
    ∃ f, Hdr.encodePixels px w h = .ok f := by
  unfold Hdr.encodePixels
  rw [mulC_ok (by omega), ok_bind, hl, decide_eq_true (Nat.le_refl _), assertR_true, ok_bind]
  split
  · exact ⟨_, rfl⟩
  · obtain ⟨st, hst, -⟩ := forRange_inv (n := h) (f := fun _ (st : List UInt8 × List Hdr.Rgbe) => do
        assertR (decide (w ≤ st.2.length))
        let b ← Hdr.encodeScanline w (st.2.take w)
        .ok (st.1 ++ b, st.2.drop w)) (fun i st => st.2.length = w * (h - i)) (s := ([], px)) (by simpa using hl) (by
      intro i hi st hs
      have : w * (h - i) = w * (h - (i + 1)) + w := by
        rw [← Nat.mul_succ]; congr 1; omega
      rw [decide_eq_true (by omega), assertR_true, ok_bind]
      unfold Hdr.encodeScanline
      obtain ⟨c1, e1⟩ := rleCompress_returns ((st.2.take w).map (·.r))
      obtain ⟨c2, e2⟩ := rleCompress_returns ((st.2.take w).map (·.g))
      obtain ⟨c3, e3⟩ := rleCompress_returns ((st.2.take w).map (·.b))
      obtain ⟨c4, e4⟩ := rleCompress_returns ((st.2.take w).map (·.e))
      rw [e1, ok_bind, e2, ok_bind, e3, ok_bind, e4, ok_bind, ok_bind]
      exact ⟨_, rfl, by dsimp only; rw [List.length_drop]; omega⟩)
    rw [hst, ok_bind]
    exact ⟨_, rfl⟩

/-- **C111: the HDR encoder returns** when no sample is `+inf`; `read` makes three floats of twelve bytes. -/
theorem C111_hdr_partial (lg : ℚ → ℤ) (hlg : LogFits lg) (read : List UInt8 → Hdr.RgbF) (c : ExtendedColorType) (w h : Nat) (buf : List UInt8)
    (hb : Buffer c w h buf)
    (hinf : ∀ k, (k + 1) * 12 ≤ buf.length → ∀ v ∈ [(read ((buf.drop (k * 12)).take 12)).r, (read ((buf.drop (k * 12)).take 12)).g,
      (read ((buf.drop (k * 12)).take 12)).b], v ≠ .inf false) :
    Returns (Hdr.writeImage lg read buf w h c) := by
  unfold Hdr.writeImage
  split
  · have hl := hb.bytes (n := 12) rfl
    have hlen : ((chunksExact (ExtendedColorType.Rgb32F.bitsPerPixel / 8) buf).map read).length = w * h := by
      rw [List.length_map, length_chunksExact]
      show buf.length / 12 = _
      rw [hl, Nat.mul_right_comm]; exact Nat.mul_div_cancel _ (by decide)
    have := hb.addressable
    unfold Hdr.encode
    obtain ⟨ps, hps, hlps⟩ : ∃ ps, ((chunksExact (ExtendedColorType.Rgb32F.bitsPerPixel / 8) buf).map read).mapM (Hdr.toRgbe8 lg) = .ok ps ∧
        ps.length = ((chunksExact (ExtendedColorType.Rgb32F.bitsPerPixel / 8) buf).map read).length := by
      rw [show ExtendedColorType.Rgb32F.bitsPerPixel / 8 = 12 from rfl] at *
      have hall : ∀ p ∈ (chunksExact 12 buf).map read, ∃ q, Hdr.toRgbe8 lg p = .ok q ∧ True := by
        intro p hp
        obtain ⟨q, hq, rfl⟩ := List.mem_map.mp hp
        obtain ⟨k, hk⟩ := List.getElem?_of_mem hq
        have hlt : k < buf.length / 12 := by
          obtain ⟨hk', -⟩ := List.getElem?_eq_some_iff.mp hk
          rwa [length_chunksExact] at hk'
        rw [getElem?_chunksExact hlt] at hk
        obtain rfl := Option.some.inj hk
        have hv := hinf k (by omega)
        obtain ⟨q, hq⟩ := toRgbe8_returns (p := read ((buf.drop (k * 12)).take 12)) hlg (hv _ (by simp)) (hv _ (by simp)) (hv _ (by simp))
        exact ⟨q, hq, trivial⟩
      obtain ⟨ps, h1, h2, -⟩ := Bmp.mapM_ok hall
      exact ⟨ps, h1, h2⟩
    rw [hps, ok_bind]
    obtain ⟨f, hf⟩ := encodePixels_returns (px := ps) (w := w) (h := h) (by omega) (by
      rw [hlps, hlen]
      have : w * h ≤ w * 12 * h := by rw [Nat.mul_right_comm]; omega
      omega)
    exact .inl ⟨f, hf⟩
  · exact .err _

/-- **C111 is false for HDR images with infinite samples.** -/
theorem C111_hdr_false (lg : ℚ → ℤ) : Buffer .Rgb32F 1 1 (List.replicate 12 0) ∧
    Hdr.writeImage lg (fun _ => ⟨.inf false, .fin 0, .fin 0⟩) (List.replicate 12 0) 1 1 .Rgb32F = panicR := by
  refine ⟨⟨by decide, by decide, by decide, by decide, by decide⟩, ?_⟩
  unfold Hdr.writeImage Hdr.encode
  rfl

/-! ## ICO -/

/-- **C111: the ICO encoder returns** when the PNG encoder that it calls does, with a file of less than 4 GiB. -/
theorem C111_ico (png : List UInt8 → Nat → Nat → ExtendedColorType → R (List UInt8)) (c : ExtendedColorType) (w h : Nat) (buf : List UInt8)
    (hb : Buffer c w h buf) (hp : Returns (png buf w h c)) (h32 : ∀ f, png buf w h c = .ok f → f.length < 2 ^ 32 - 22) :
    Returns (Ico.writeImage png buf w h c) := by
  unfold Ico.writeImage Ico.Frame.asPng
  rw [hb.size, ok_bind, decide_eq_true rfl, assertR_true, ok_bind]
  rcases hp with ⟨f, hf⟩ | ⟨e, he⟩
  · have := h32 f hf
    rw [hf, ok_bind]
    unfold Ico.Frame.withEncoded
    split
    · exact .err _
    split
    · exact .err _
    rw [ok_bind]
    unfold Ico.encodeImages
    rw [if_neg (by simp)]
    dsimp only [forList, List.length_singleton]
    rw [addC_ok (by omega), ok_bind, ok_bind, ok_bind]
    exact .ok _
  · rw [he]; exact .err _

/-! ## JPEG -/

section
open Jpeg

theorem encodeGray_empty {I : Type} {m : PixelType} [GenericImageView I (Pix Nat m.ch)] {image : I} (T : Prim)
    (h0 : widthOf image = 0 ∨ heightOf image = 0) (tables : List (List Nat)) (s : BitWriter) : encodeGray T m tables image s = .ok s := by
  obtain ⟨la, h1, -⟩ := codes_of_valid LUMA_AC valid_lumaAc
  obtain ⟨ld, h2, -⟩ := codes_of_valid LUMA_DC valid_lumaDc
  unfold encodeGray
  rw [h1, ok_bind, h2, ok_bind]
  rcases h0 with h0 | h0
  · rw [h0]
    have : ∀ n st, forRange n (fun j st => forRange ((0 + 7) / 8) (fun i st => grayStep T m ld la tables image i j st) st) st = .ok st := by
      intro n
      induction n with
      | zero => intro st; rfl
      | succ n ih => intro st; rw [forRange_succ, ih, ok_bind]; rfl
    rw [this, ok_bind]
  · rw [h0]; rfl

theorem encodeRgb_empty {I : Type} {m : PixelType} [GenericImageView I (Pix Nat m.ch)] {image : I} (T : Prim)
    (h0 : widthOf image = 0 ∨ heightOf image = 0) (tables : List (List Nat)) (s : BitWriter) : encodeRgb T m tables image s = .ok s := by
  obtain ⟨la, h1, -⟩ := codes_of_valid LUMA_AC valid_lumaAc
  obtain ⟨ld, h2, -⟩ := codes_of_valid LUMA_DC valid_lumaDc
  obtain ⟨cd, h3, -⟩ := codes_of_valid CHROMA_DC valid_chromaDc
  obtain ⟨ca, h4, -⟩ := codes_of_valid CHROMA_AC valid_chromaAc
  unfold encodeRgb
  rw [h1, ok_bind, h2, ok_bind, h3, ok_bind, h4, ok_bind]
  rcases h0 with h0 | h0
  · rw [h0]
    have : ∀ n st, forRange n (fun j st => forRange ((0 + 7) / 8) (fun i st => rgbStep T m ⟨ld, la, cd, ca⟩ tables image i j st) st) st = .ok st := by
      intro n
      induction n with
      | zero => intro st; rfl
      | succ n ih => intro st; rw [forRange_succ, ih, ok_bind]; rfl
    rw [this, ok_bind]
  · rw [h0]; rfl

theorem padByte_start (s : BitWriter) (h : s.nbits = 0 ∧ s.accumulator = 0) (g : BitWriter → Encoder) :
    ∃ e', (s.padByte >>= fun s => .ok (g s)) = .ok e' := by
  obtain ⟨s', _, _, e, _⟩ := pad_wrote (wrote_start s h.1 h.2)
  exact ⟨g s', by rw [e, ok_bind]⟩

theorem encodeImage_empty {I : Type} {m : PixelType} [GenericImageView I (Pix Nat m.ch)] {image : I} (hm : m = .luma ∨ m = .rgb)
    (h0 : widthOf image = 0 ∨ heightOf image = 0) (hw : widthOf image < 2 ^ 16) (hh : heightOf image < 2 ^ 16)
    {e : Encoder} {t0 t1 : List Nat} (he : Fresh e t0 t1) : ∃ e', encodeImage .u8 m e image = .ok e' := by
  have hbits : (e.writer.writeMarker 0xD8).nbits = 0 ∧ (e.writer.writeMarker 0xD8).accumulator = 0 := by
    rw [he.w]; exact ⟨rfl, rfl⟩
  rcases hm with rfl | rfl
  · have hnum : (if PixelType.luma.ch = 1 ∨ PixelType.luma.ch = 2 then 1 else 3) = 1 := rfl
    unfold encodeImage
    rw [hnum]
    dsimp only
    rw [writeSegment_ok _ _ _ (by rw [jfif_length]; omega), ok_bind, writeIccProfileChunks_ok _ he.icc, ok_bind,
      if_neg (by omega), if_neg (by omega), writeSegment_ok _ _ _ (by simp [frameHeader, components]), ok_bind, he.tables]
    rw [show assertR (decide ([t0, t1].length = 2)) = .ok () from rfl, ok_bind]
    simp only [if_true]
    rw [forRange_succ, forRange_zero, ok_bind, show getR [t0, t1] 0 = .ok t0 from rfl, ok_bind, quantizationSegment_ok 0 (by omega) he.q0, ok_bind,
      writeSegment_ok _ _ _ (by rw [dqt_length]; omega), ok_bind, huffSeg_lumaDc, ok_bind, writeSegment_ok _ _ _ (by decide +kernel), ok_bind,
      huffSeg_lumaAc, ok_bind, writeSegment_ok _ _ _ (by decide +kernel), ok_bind]
    simp only [show ¬(1 = 3) by omega, if_false, ok_bind]
    rw [writeSegment_ok _ _ _ (by decide), ok_bind, if_neg (by simp), encodeGray_empty .u8 h0, ok_bind]
    refine padByte_start _ ?_ _
    exact hbits
  · have hnum : (if PixelType.rgb.ch = 1 ∨ PixelType.rgb.ch = 2 then 1 else 3) = 3 := rfl
    unfold encodeImage
    rw [hnum]
    dsimp only
    rw [writeSegment_ok _ _ _ (by rw [jfif_length]; omega), ok_bind, writeIccProfileChunks_ok _ he.icc, ok_bind,
      if_neg (by omega), if_neg (by omega), writeSegment_ok _ _ _ (by simp [frameHeader, components]), ok_bind, he.tables]
    rw [show assertR (decide ([t0, t1].length = 2)) = .ok () from rfl, ok_bind]
    simp only [show ¬(3 = 1) by omega, if_false]
    rw [forRange_succ, forRange_succ, forRange_zero, ok_bind, show getR [t0, t1] 0 = .ok t0 from rfl, ok_bind,
      quantizationSegment_ok 0 (by omega) he.q0, ok_bind,
      writeSegment_ok _ _ _ (by rw [dqt_length]; omega), ok_bind, show getR [t0, t1] 1 = .ok t1 from rfl, ok_bind,
      quantizationSegment_ok 1 (by omega) he.q1, ok_bind, writeSegment_ok _ _ _ (by rw [dqt_length]; omega), ok_bind,
      huffSeg_lumaDc, ok_bind, writeSegment_ok _ _ _ (by decide +kernel), ok_bind,
      huffSeg_lumaAc, ok_bind, writeSegment_ok _ _ _ (by decide +kernel), ok_bind]
    simp only [if_true]
    rw [huffSeg_chromaDc, ok_bind, writeSegment_ok _ _ _ (by decide +kernel), ok_bind, huffSeg_chromaAc, ok_bind,
      writeSegment_ok _ _ _ (by decide +kernel), ok_bind]
    rw [writeSegment_ok _ _ _ (by decide), ok_bind, if_pos ⟨trivial, .inl trivial⟩, encodeRgb_empty .u8 h0, ok_bind]
    refine padByte_start _ ?_ _
    exact hbits

theorem encodeImage_returns {ch : Nat} {m : PixelType} (hm : m = .luma ∨ m = .rgb) (hch : m.ch = ch) {w h : Nat} {data : List Nat}
    (hl : data.length = w * h * ch) (hb : ∀ v ∈ data, v ≤ 255) {e : Encoder} {t0 t1 : List Nat} (hw : e.writer = BitWriter.new)
    (ht : e.tables = [t0, t1]) (hq0 : QTable t0) (hq1 : QTable t1) : Returns (encodeImage .u8 m e (⟨w, h, data⟩ : ImageBuffer Nat m.ch)) := by
  by_cases hicc : e.iccProfile.length ≤ 65519 * 255
  · by_cases hlarge : 2 ^ 16 ≤ w ∨ 2 ^ 16 ≤ h
    · rw [C44_too_large (image := (⟨w, h, data⟩ : ImageBuffer Nat m.ch)) .u8 e hicc hlarge]; exact .err _
    · have he : Fresh e t0 t1 := ⟨hw, ht, hq0, hq1, hicc⟩
      by_cases hz : w = 0 ∨ h = 0
      · exact .inl (encodeImage_empty (image := (⟨w, h, data⟩ : ImageBuffer Nat m.ch)) hm hz (show w < _ by omega) (show h < _ by omega) he)
      · have hs := shows_buffer (m := m) hch (by rw [← hch]; rcases hm with rfl | rfl <;> decide) (by omega) (by omega) (by omega) (by omega) hl hb
        rcases hm with rfl | rfl
        · obtain ⟨e', h1, -⟩ := encodeImage_gray hs (.inl rfl) he; exact .inl ⟨e', h1⟩
        · obtain ⟨e', h1, -⟩ := encodeImage_rgb hs (.inl rfl) he; exact .inl ⟨e', h1⟩
  · rw [C70_icc_too_large .u8 m e _ (by omega)]; exact .err _

/-- **C111: the JPEG encoder returns**, for every quality, pixel density and colour profile. -/
theorem C111_jpeg (q : Nat) (d : PixelDensity) (icc : List UInt8) (c : ExtendedColorType) (w h : Nat) (buf : List UInt8) (hb : Buffer c w h buf) :
    Returns (encode { newWithQuality q with density := d, iccProfile := icc } (buf.map UInt8.toNat) w h c) := by
  have hf := fresh_new q
  have hsize := hb.size
  by_cases h1 : c = .L8
  · subst h1
    have hl := hb.bytes (n := 1) rfl
    have hl' : (buf.map UInt8.toNat).length = w * h * 1 := by rw [List.length_map, hl, Nat.mul_right_comm]
    unfold encode
    rw [hsize, ok_bind, List.length_map, decide_eq_true rfl, assertR_true, ok_bind]
    dsimp only
    have hraw : ImageBuffer.fromRaw 1 w h (buf.map UInt8.toNat) = some ⟨w, h, buf.map UInt8.toNat⟩ := by
      unfold ImageBuffer.fromRaw
      rw [if_pos]
      rw [ImageBuffer.checkImageFits_iff (by decide) hb.width, hl']
      have := hb.addressable
      rw [List.length_map] at hl'
      omega
    rw [hraw]
    show Returns (encodeImage .u8 .luma _ _)
    exact encodeImage_returns (.inl rfl) rfl hl' (by simp; intro a _; have := a.toNat_lt; omega) hf.w hf.tables hf.q0 hf.q1
  · by_cases h2 : c = .Rgb8
    · subst h2
      have hl := hb.bytes (n := 3) rfl
      have hl' : (buf.map UInt8.toNat).length = w * h * 3 := by rw [List.length_map, hl, Nat.mul_right_comm]
      unfold encode
      rw [hsize, ok_bind, List.length_map, decide_eq_true rfl, assertR_true, ok_bind]
      dsimp only
      have hraw : ImageBuffer.fromRaw 3 w h (buf.map UInt8.toNat) = some ⟨w, h, buf.map UInt8.toNat⟩ := by
        unfold ImageBuffer.fromRaw
        rw [if_pos]
        rw [ImageBuffer.checkImageFits_iff (by decide) hb.width, hl']
        have := hb.addressable
        rw [List.length_map] at hl'
        omega
      rw [hraw]
      show Returns (encodeImage .u8 .rgb _ _)
      exact encodeImage_returns (.inr rfl) rfl hl' (by simp; intro a _; have := a.toNat_lt; omega) hf.w hf.tables hf.q0 hf.q1
    · rw [C44_unsupported _ _ w h c h1 h2 (by rw [List.length_map]; exact hsize)]
      exact .err _

end

/-! ## Examples -/

example : Returns (Farbfeld.writeImage true (List.replicate 16 7) 2 1 .Rgba16) :=
  C111_farbfeld true .Rgba16 2 1 _ ⟨by decide, by decide, by decide, by decide, by decide⟩
example : Returns (Tga.encode true (List.replicate 12 7) 2 2 .Rgb8) :=
  C111_tga true .Rgb8 2 2 _ ⟨by decide, by decide, by decide, by decide, by decide⟩
example : Returns (Pnm.writeImage (.subtype (.bitmap .binary)) [1, 1] 1 2 .L1) :=
  C111_pnm_partial _ .L1 1 2 _ ⟨by decide, by decide, by decide, by decide, by decide⟩ fun _ => .inl (by decide)
example : Returns (Bmp.encode (List.replicate 12 7) 3 2 .La8) :=
  C111_bmp_partial .La8 3 2 _ ⟨by decide, by decide, by decide, by decide, by decide⟩ ⟨by decide, by decide, fun _ => by decide⟩
example : Returns (Jpeg.encode (Jpeg.newWithQuality 75) ((List.replicate 6 7).map UInt8.toNat) 2 1 .Rgb8) :=
  C111_jpeg 75 _ _ .Rgb8 2 1 _ ⟨by decide, by decide, by decide, by decide, by decide⟩
example : Returns (Hdr.writeImage (fun _ => 0) (fun _ => ⟨.fin 1, .nan, .inf true⟩) (List.replicate 12 0) 1 1 .Rgb32F) :=
  C111_hdr_partial _ (fun _ => by decide) _ .Rgb32F 1 1 _ ⟨by decide, by decide, by decide, by decide, by decide⟩ (by simp)

end EncoderTotal
end Verif
