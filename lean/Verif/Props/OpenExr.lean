import Verif.Model.OpenExr
import Verif.Proofs.Buffer
import Verif.Props.DecoderToImage

/-!
# C98: OpenEXR images are cropped and placed by their windows

An OpenEXR file has a *data window* (where it has pixels) and a *display window* (the picture); both are
rectangles of one plane of pixel positions. The decoded image is the display window; pixels outside of the
data window are 0 in all channels.
-/

namespace Verif.Exr
open Verif

/-- The windows are within the bounds the `exr` crate enforces (`IntegerBounds::validate`). -/
structure Bounded (h : Header) : Prop where
  dx : -(2 ^ 30) < h.dispX
  dy : -(2 ^ 30) < h.dispY
  dw : h.dispX + h.dispW < 2 ^ 30
  dh : h.dispY + h.dispH < 2 ^ 30
  px : -(2 ^ 30) < h.posX
  py : -(2 ^ 30) < h.posY
  pw : h.posX + h.dataW < 2 ^ 30
  ph : h.posY + h.dataH < 2 ^ 30

/-- The calls of the closure deliver the data window with the pixel values `px`, in any order. -/
structure Delivers (h : Header) (px : Nat → Nat → List Nat) (evs : List Event) : Prop where
  inside : ∀ e ∈ evs, e.x < h.dataW ∧ e.y < h.dataH
  value : ∀ e ∈ evs, e.rgba = px e.x e.y
  all : ∀ i j, i < h.dataW → j < h.dataH → ∃ e ∈ evs, e.x = i ∧ e.y = j

theorem store_ok {h : Header} (hb : Bounded h) {ch : Nat} {buffer : List Nat}
    (hl : buffer.length = h.dispW * h.dispH * ch) (h64 : h.dispW * h.dispH * ch < 2 ^ 64) (h0 : 0 < ch) {e : Event}
    (he : e.x < h.dataW ∧ e.y < h.dataH) (hr : ch ≤ e.rgba.length) :
    ∃ b', storePixel h (h.posX - h.dispX) (h.posY - h.dispY) ch buffer e = .ok b' ∧ b'.length = buffer.length ∧
      ∀ x y c, x < h.dispW → y < h.dispH → c < ch →
        b'[(y * h.dispW + x) * ch + c]? =
          if (e.x : Int) + h.posX = x + h.dispX ∧ (e.y : Int) + h.posY = y + h.dispY then e.rgba[c]?
          else buffer[(y * h.dispW + x) * ch + c]? := by
  obtain ⟨dx, dy, dw, dh, px, py, pw, ph⟩ := hb
  obtain ⟨hex, hey⟩ := he
  unfold storePixel toI32 addI32
  rw [if_pos (by omega), if_pos (by omega)]
  simp only [ok_bind]
  rw [if_pos (by omega), if_pos (by omega)]
  simp only [ok_bind]
  by_cases hin : (e.x : Int) + (h.posX - h.dispX) ≥ 0 ∧ (e.y : Int) + (h.posY - h.dispY) ≥ 0 ∧
      (e.x : Int) + (h.posX - h.dispX) < (h.dispW : Int) ∧ (e.y : Int) + (h.posY - h.dispY) < (h.dispH : Int)
  · rw [if_pos hin]
    obtain ⟨X, hX⟩ : ∃ X : Nat, (e.x : Int) + (h.posX - h.dispX) = X := ⟨_, (Int.toNat_of_nonneg hin.1).symm⟩
    obtain ⟨Y, hY⟩ : ∃ Y : Nat, (e.y : Int) + (h.posY - h.dispY) = Y := ⟨_, (Int.toNat_of_nonneg hin.2.1).symm⟩
    rw [hX, hY] at hin ⊢
    simp only [Int.toNat_natCast]
    have hXw : X < h.dispW := by omega
    have hYh : Y < h.dispH := by omega
    have hi := idx_lt hXw hYh
    have hce := chunk_end_le (ch := ch) hi
    have hsm : (Y * h.dispW + X + 1) * ch = (Y * h.dispW + X) * ch + ch := Nat.succ_mul _ _
    have hle : h.dispW * h.dispH ≤ h.dispW * h.dispH * ch := Nat.le_mul_of_pos_right _ h0
    rw [mulC_ok (by omega)]; simp only [ok_bind]
    rw [addC_ok (by omega)]; simp only [ok_bind]
    rw [mulC_ok (by omega)]; simp only [ok_bind]
    rw [mulC_ok (by omega)]; simp only [ok_bind]
    rw [if_pos (by omega), decide_eq_true hr]
    simp only [assertR_true, ok_bind]
    have htl : (e.rgba.take ch).length = ch := by rw [List.length_take]; omega
    refine ⟨_, rfl, length_overwrite (by omega), ?_⟩
    intro x y c hx hy hc
    rw [getElem?_overwrite (by omega), htl]
    by_cases heq : (e.x : Int) + h.posX = x + h.dispX ∧ (e.y : Int) + h.posY = y + h.dispY
    · rw [if_pos heq]
      have : X = x ∧ Y = y := by omega
      obtain ⟨rfl, rfl⟩ := this
      rw [if_neg (by omega), if_pos (by omega), List.getElem?_take, if_pos (by omega)]
      congr 1
      omega
    · rw [if_neg heq]
      have hne : y * h.dispW + x ≠ Y * h.dispW + X := by
        intro hh
        have := idx_inj hx hXw hh
        omega
      rcases Nat.lt_or_gt_of_ne hne with hlt | hgt
      · have := chunk_end_le (ch := ch) hlt
        rw [if_pos (by omega)]
      · have := chunk_end_le (ch := ch) hgt
        rw [if_neg (by omega), if_neg (by omega)]
  · rw [if_neg hin]
    refine ⟨_, rfl, rfl, ?_⟩
    intro x y c hx hy hc
    rw [if_neg (by omega)]

theorem fold_ok {h : Header} (hb : Bounded h) {ch : Nat} (h64 : h.dispW * h.dispH * ch < 2 ^ 64) (h0 : 0 < ch)
    {px : Nat → Nat → List Nat} : ∀ (evs : List Event) (buffer : List Nat),
    buffer.length = h.dispW * h.dispH * ch →
    (∀ e ∈ evs, e.x < h.dataW ∧ e.y < h.dataH) → (∀ e ∈ evs, e.rgba = px e.x e.y ∧ ch ≤ e.rgba.length) →
    ∃ b', evs.foldlM (storePixel h (h.posX - h.dispX) (h.posY - h.dispY) ch) buffer = .ok b' ∧
      b'.length = buffer.length ∧
      ∀ x y c, x < h.dispW → y < h.dispH → c < ch →
        (∀ i j : Nat, (i : Int) + h.posX = x + h.dispX → (j : Int) + h.posY = y + h.dispY →
          (∃ e ∈ evs, e.x = i ∧ e.y = j) → b'[(y * h.dispW + x) * ch + c]? = (px i j)[c]?) ∧
        ((∀ e ∈ evs, ¬ ((e.x : Int) + h.posX = x + h.dispX ∧ (e.y : Int) + h.posY = y + h.dispY)) →
          b'[(y * h.dispW + x) * ch + c]? = buffer[(y * h.dispW + x) * ch + c]?)
  | [], buffer, hl, _, _ => ⟨buffer, rfl, rfl, fun x y c _ _ _ => ⟨fun _ _ _ _ h => by simp at h, fun _ => rfl⟩⟩
  | e :: evs, buffer, hl, hin, hv => by
    obtain ⟨b1, s1, s2, s3⟩ := store_ok hb hl h64 h0 (hin e (by simp)) (hv e (by simp)).2
    obtain ⟨b2, t1, t2, t3⟩ := fold_ok hb h64 h0 (px := px) evs b1 (by omega) (fun a ha => hin a (by simp [ha]))
      (fun a ha => hv a (by simp [ha]))
    refine ⟨b2, ?_, by omega, ?_⟩
    · rw [List.foldlM_cons, s1]; exact t1
    · intro x y c hx hy hc
      obtain ⟨u1, u2⟩ := t3 x y c hx hy hc
      constructor
      · intro i j hi hj hex
        by_cases hrest : ∃ e ∈ evs, e.x = i ∧ e.y = j
        · exact u1 i j hi hj hrest
        · rw [u2 (by
            intro a ha hpos
            exact hrest ⟨a, ha, by omega, by omega⟩)]
          obtain ⟨a, ha, hai, haj⟩ := hex
          rcases List.mem_cons.1 ha with rfl | ha
          · rw [s3 x y c hx hy hc, if_pos (by omega), (hv a (by simp)).1, hai, haj]
          · exact absurd ⟨a, ha, hai, haj⟩ hrest
      · intro hno
        rw [u2 (fun a ha => hno a (by simp [ha])), s3 x y c hx hy hc, if_neg (hno e (by simp))]

theorem channelCount_cases (d : Decoder) :
    (d.colorType = .Rgba32F ∧ d.colorType.channelCount = 4 ∧ d.colorType.bytesPerPixel = 16) ∨
    (d.colorType = .Rgb32F ∧ d.colorType.channelCount = 3 ∧ d.colorType.bytesPerPixel = 12) := by
  unfold Decoder.colorType
  split
  · left; exact ⟨rfl, rfl, rfl⟩
  · right; exact ⟨rfl, rfl, rfl⟩

theorem length_bytesOf (le : Bool) (sz : Nat) (l : List Nat) : (bytesOf le sz l).length = l.length * sz := by
  unfold bytesOf
  induction l with
  | nil => simp
  | cons a l ih =>
    rw [List.flatMap_cons, List.length_append, ih, List.length_cons, Nat.succ_mul]
    cases le <;> simp <;> omega

/-- `read_image`: the samples of the image are the display window. Where the data window covers a position, the image
has the file's pixel; elsewhere it is 0. The order in which the crate delivers the pixels does not matter. -/
theorem C98_pixels (le : Bool) (d : Decoder) (hb : Bounded d.header) (px : Nat → Nat → List Nat)
    (hpx : ∀ i j, i < d.header.dataW → j < d.header.dataH → (px i j).length = 4) (evs : List Event)
    (hd : Delivers d.header px evs) (len : Nat)
    (hlen : len = d.header.dispW * d.header.dispH * d.colorType.bytesPerPixel) (h64 : len < 2 ^ 64) :
    ∃ samples, readImage le d (.ok evs) len = .ok (bytesOf le 4 samples) ∧ (bytesOf le 4 samples).length = len ∧
      samples.length = d.header.dispW * d.header.dispH * d.colorType.channelCount ∧
      ∀ x y c, x < d.header.dispW → y < d.header.dispH → c < d.colorType.channelCount →
        (∀ i j, i < d.header.dataW → j < d.header.dataH → (i : Int) + d.header.posX = x + d.header.dispX →
          (j : Int) + d.header.posY = y + d.header.dispY →
          samples[(y * d.header.dispW + x) * d.colorType.channelCount + c]? = (px i j)[c]?) ∧
        ((∀ i j, i < d.header.dataW → j < d.header.dataH → ¬ ((i : Int) + d.header.posX = x + d.header.dispX ∧
            (j : Int) + d.header.posY = y + d.header.dispY)) →
          samples[(y * d.header.dispW + x) * d.colorType.channelCount + c]? = some 0) := by
  have hcc := channelCount_cases d
  have hch : d.colorType.bytesPerPixel = d.colorType.channelCount * 4 := by omega
  have hc0 : 0 < d.colorType.channelCount ∧ d.colorType.channelCount ≤ 4 := by omega
  rw [hch] at hlen
  generalize hCH : d.colorType.channelCount = ch at *
  have hlen' : len = d.header.dispW * d.header.dispH * ch * 4 := by rw [hlen]; rw [Nat.mul_assoc _ ch 4]
  have hle : d.header.dispW * d.header.dispH ≤ d.header.dispW * d.header.dispH * ch := Nat.le_mul_of_pos_right _ hc0.1
  obtain ⟨b', f1, f2, f3⟩ := fold_ok hb (ch := ch) (by omega) hc0.1 (px := px) evs
    (List.replicate (d.header.dispW * d.header.dispH * ch) 0) (by simp) hd.inside (by
      intro e he
      have h1 := hd.inside e he
      have h2 := hd.value e he
      exact ⟨h2, by rw [h2, hpx _ _ h1.1 h1.2]; omega⟩)
  have hbl : (bytesOf le 4 b').length = len := by rw [length_bytesOf, f2]; simp; omega
  refine ⟨b', ?_, hbl, by rw [f2]; simp, ?_⟩
  · obtain ⟨dx, dy, dw, dh, p1, p2, pw, ph⟩ := hb
    unfold readImage subI32
    rw [if_pos (by omega), if_pos (by omega)]
    simp only [ok_bind]
    have he : ((checkedMul 64 d.dimensions.1 d.dimensions.2).bind fun size =>
        checkedMul 64 size d.colorType.bytesPerPixel) = some len := by
      unfold checkedMul Decoder.dimensions
      simp only
      rw [Nat.mod_eq_of_lt (by omega), Nat.mod_eq_of_lt (by omega), hch, if_pos (by omega)]
      show (if _ then _ else _) = _
      rw [if_pos (by omega), hlen]
    rw [decide_eq_true he, hCH]
    simp only [assertR_true, ok_bind]
    rw [mulC_ok (by omega)]; simp only [ok_bind]
    rw [mulC_ok (by omega)]; simp only [ok_bind]
    rw [f1]
    simp only [ok_bind, hbl, decide_true, assertR_true]
  · intro x y c hx hy hc
    obtain ⟨g1, g2⟩ := f3 x y c hx hy hc
    constructor
    · intro i j hi hj h1 h2
      exact g1 i j h1 h2 (hd.all i j hi hj)
    · intro hno
      rw [g2 (fun e he => hno _ _ (hd.inside e he).1 (hd.inside e he).2)]
      have := chunk_end_le (ch := ch) (idx_lt hx hy)
      rw [List.getElem?_replicate, if_pos (by omega)]

/-- A failure of the crate is reported. -/
theorem C98_error (le : Bool) (d : Decoder) (hb : Bounded d.header) (len : Nat)
    (hlen : len = d.header.dispW * d.header.dispH * d.colorType.bytesPerPixel) (h64 : len < 2 ^ 64) :
    readImage le d (errR .decoding) len = .error (.err .decoding) := by
  have hcc := channelCount_cases d
  have hle : d.header.dispW * d.header.dispH ≤ d.header.dispW * d.header.dispH * d.colorType.bytesPerPixel :=
    Nat.le_mul_of_pos_right _ (by omega)
  obtain ⟨dx, dy, dw, dh, p1, p2, pw, ph⟩ := hb
  unfold readImage subI32
  rw [if_pos (by omega), if_pos (by omega)]
  simp only [ok_bind]
  have he : ((checkedMul 64 d.dimensions.1 d.dimensions.2).bind fun size =>
      checkedMul 64 size d.colorType.bytesPerPixel) = some len := by
    unfold checkedMul Decoder.dimensions
    simp only
    rw [Nat.mod_eq_of_lt (by omega), Nat.mod_eq_of_lt (by omega), if_pos (by omega)]
    show (if _ then _ else _) = _
    rw [if_pos (by omega), hlen]
  rw [decide_eq_true he]
  rfl

/-- The layer: the first one that is not deep and has red, green and blue; without one, a decoding error. -/
theorem C98_layer (headers : List Header) (pref : Option Bool) :
    (∀ h, (∃ l r, headers = l ++ h :: r ∧ (∀ a ∈ l, a.deep = true ∨ ∃ c ∈ ["R", "G", "B"], c ∉ a.channels)) →
      h.deep = false → (∀ c ∈ ["R", "G", "B"], c ∈ h.channels) →
      ∃ d, withAlphaPreference headers pref = .ok d ∧ d.header = h ∧
        (d.colorType = .Rgba32F ↔ pref = some true ∨ pref = none ∧ "A" ∈ h.channels) ∧
        (d.colorType = .Rgb32F ↔ pref = some false ∨ pref = none ∧ "A" ∉ h.channels)) ∧
    ((∀ h ∈ headers, h.deep = true ∨ ∃ c ∈ ["R", "G", "B"], c ∉ h.channels) →
      withAlphaPreference headers pref = .error (.err .decoding)) := by
  have hno : ∀ a : Header, (a.deep = true ∨ ∃ c ∈ ["R", "G", "B"], c ∉ a.channels) → a.usable = false := by
    intro a ha
    unfold Header.usable
    rcases ha with ha | ⟨c, hc, ha⟩
    · rw [ha]; rfl
    · rw [Bool.and_eq_false_iff]
      right
      rw [List.all_eq_false]
      exact ⟨c, hc, by simpa using ha⟩
  constructor
  · rintro h ⟨l, r, rfl, hl⟩ hdeep hrgb
    have hu : h.usable = true := by
      unfold Header.usable
      rw [hdeep, Bool.not_false, Bool.true_and, List.all_eq_true]
      intro c hc
      simpa using hrgb c hc
    have hf : (l ++ h :: r).find? Header.usable = some h := by
      rw [List.find?_append, List.find?_eq_none.2 (by
        intro a ha
        rw [hno a (hl a ha)]; simp)]
      simp [hu]
    unfold withAlphaPreference
    rw [hf]
    refine ⟨_, rfl, rfl, ?_, ?_⟩
    · unfold Decoder.colorType
      cases pref with
      | none => by_cases hA : "A" ∈ h.channels <;> simp [hA]
      | some b => cases b <;> simp
    · unfold Decoder.colorType
      cases pref with
      | none => by_cases hA : "A" ∈ h.channels <;> simp [hA]
      | some b => cases b <;> simp
  · intro hall
    unfold withAlphaPreference
    rw [List.find?_eq_none.2 (by intro a ha; rw [hno a (hall a ha)]; simp)]
    rfl

/-- The header of a written file: both windows are the whole image at the origin. -/
def writtenHeader (w : Written) : Header :=
  ⟨0, 0, w.width, w.height, 0, 0, w.width, w.height, false, if w.alpha then ["A", "B", "G", "R"] else ["B", "G", "R"]⟩

/-- The colour types that can be written, with their number of channels. -/
def channelsOf : ExtendedColorType → Option Nat
  | .Rgb32F => some 3
  | .Rgba32F => some 4
  | _ => none

theorem bytesOf_slice (le : Bool) (sz k n : Nat) (l : List Nat) :
    ((bytesOf le sz l).drop (k * sz)).take (n * sz) = bytesOf le sz ((l.drop k).take n) := by
  have happ : ∀ a b : List Nat, bytesOf le sz (a ++ b) = bytesOf le sz a ++ bytesOf le sz b := by
    intro a b; simp [bytesOf]
  by_cases hk : k ≤ l.length
  · have h1 : (bytesOf le sz l).drop (k * sz) = bytesOf le sz (l.drop k) := by
      conv_lhs => rw [← List.take_append_drop k l, happ]
      rw [List.drop_left' (by rw [length_bytesOf, List.length_take, Nat.min_eq_left hk])]
    rw [h1]
    generalize l.drop k = m
    by_cases hn : n ≤ m.length
    · conv_lhs => rw [← List.take_append_drop n m, happ]
      rw [List.take_left' (by rw [length_bytesOf, List.length_take, Nat.min_eq_left hn])]
    · rw [List.take_of_length_le (by omega : m.length ≤ n), List.take_of_length_le]
      rw [length_bytesOf]; exact Nat.mul_le_mul_right _ (by omega)
  · rw [List.drop_eq_nil_of_le (by omega : l.length ≤ k), List.drop_eq_nil_of_le]
    · simp [bytesOf]
    · rw [length_bytesOf]; exact Nat.mul_le_mul_right _ (by omega)

theorem bufferSize_exr {color : ExtendedColorType} {ch : Nat} (hc : channelsOf color = some ch) {w h : Nat} (hw : w < 2 ^ 32)
    (h64 : w * h * ch * 4 < 2 ^ 64) : color.bufferSize w h = .ok (w * h * ch * 4) ∧ color.bitsPerPixel / 8 = ch * 4 := by
  have key : ∀ k, 0 < k → k ≤ 128 → color.bitsPerPixel = k * 8 → w * h * k < 2 ^ 64 → color.bufferSize w h = .ok (w * h * k) := by
    intro k h0 hk hb hs
    unfold ExtendedColorType.bufferSize
    rw [hb]
    have : w * (k * 8) ≤ w * 1024 := Nat.mul_le_mul_left _ (by omega)
    rw [mulC_ok (by omega)]; simp only [ok_bind]
    rw [addC_ok (by omega)]; simp only [ok_bind]
    have e1 : (w * (k * 8) + 7) / 8 = w * k := by rw [← Nat.mul_assoc]; omega
    rw [e1]
    unfold satMul
    have e2 : w * k * h = w * h * k := by rw [Nat.mul_assoc, Nat.mul_comm k h, ← Nat.mul_assoc]
    rw [e2, Nat.min_eq_left (by omega)]
  cases color <;> simp [channelsOf] at hc
  · subst hc
    refine ⟨?_, rfl⟩
    rw [Nat.mul_assoc (w * h)]
    exact key 12 (by omega) (by omega) rfl (by omega)
  · subst hc
    refine ⟨?_, rfl⟩
    rw [Nat.mul_assoc (w * h)]
    exact key 16 (by omega) (by omega) rfl (by omega)

/-- `write_image`: the samples handed to the crate are those of the buffer. -/
theorem C98_write (le : Bool) (color : ExtendedColorType) (ch : Nat) (hc : channelsOf color = some ch) (w h : Nat)
    (hw : w < 2 ^ 32) (vals : List Nat) (hv : ∀ v ∈ vals, v < 2 ^ 32) (hl : vals.length = w * h * ch)
    (h64 : w * h * ch * 4 < 2 ^ 64) :
    ∃ f, writeImage le (bytesOf le 4 vals) w h color = .ok f ∧ f.width = w ∧ f.height = h ∧
      (f.alpha = true ↔ color = .Rgba32F) ∧
      ∀ x y, x < w → y < h → f.pixel x y = .ok ((vals.drop ((y * w + x) * ch)).take ch) := by
  obtain ⟨b1, b2⟩ := bufferSize_exr hc hw h64
  have hbl : (bytesOf le 4 vals).length = w * h * ch * 4 := by rw [length_bytesOf, hl]
  have hpix : ∀ x y, x < w → y < h →
      loadPixel le (bytesOf le 4 vals) w (ch * 4) x y = .ok ((vals.drop ((y * w + x) * ch)).take ch) := by
    intro x y hx hy
    have hi := idx_lt hx hy
    have hce := chunk_end_le (ch := ch) hi
    have hch : ch = 3 ∨ ch = 4 := by cases color <;> simp [channelsOf] at hc <;> omega
    have hle : w * h ≤ w * h * ch := Nat.le_mul_of_pos_right _ (by omega)
    unfold loadPixel
    rw [mulC_ok (by omega)]; simp only [ok_bind]
    rw [addC_ok (by omega)]; simp only [ok_bind]
    have e1 : (y * w + x) * (ch * 4) = (y * w + x) * ch * 4 := (Nat.mul_assoc _ _ _).symm
    rw [mulC_ok (by omega), e1]; simp only [ok_bind]
    rw [addC_ok (by omega)]; simp only [ok_bind]
    rw [sliceR_ok (by omega) (by omega)]
    simp only [ok_bind]
    rw [show (y * w + x) * ch * 4 + ch * 4 - (y * w + x) * ch * 4 = ch * 4 by omega, bytesOf_slice,
      DynamicImage.samplesOf_bytesOf le 4 (by omega)]
    intro v hvm
    exact hv v (List.mem_of_mem_drop (List.mem_of_mem_take hvm))
  unfold writeImage
  rw [b1]
  simp only [ok_bind, hbl, decide_true, assertR_true]
  cases color <;> simp [channelsOf] at hc
  · rw [b2]
    exact ⟨_, rfl, rfl, rfl, by simp, hpix⟩
  · rw [b2]
    exact ⟨_, rfl, rfl, rfl, by simp, hpix⟩

/-- The other colour types are refused. -/
theorem C98_write_unsupported (le : Bool) (color : ExtendedColorType) (hc : channelsOf color = none) (w h n : Nat)
    (buf : List UInt8) (hn : color.bufferSize w h = .ok n) (hl : buf.length = n) :
    writeImage le buf w h color = .error (.err .encoding) := by
  unfold writeImage
  rw [hn]
  simp only [ok_bind, hl, decide_true, assertR_true]
  cases color <;> simp [channelsOf] at hc <;> rfl

/-- Writing and reading back gives the same bytes, when the crate gives back the pixels it was given: whatever the
order, with alpha only if the image has alpha. -/
theorem C98_roundtrip (le : Bool) (color : ExtendedColorType) (ch : Nat) (hc : channelsOf color = some ch) (w h : Nat)
    (hw : w < 2 ^ 30) (hh : h < 2 ^ 30) (vals : List Nat) (hv : ∀ v ∈ vals, v < 2 ^ 32) (hl : vals.length = w * h * ch)
    (h64 : w * h * ch * 4 < 2 ^ 64) (f : Written) (hf : writeImage le (bytesOf le 4 vals) w h color = .ok f)
    (px : Nat → Nat → List Nat)
    (hpx : ∀ i j, i < w → j < h → ∃ a, f.pixel i j = .ok a ∧ px i j = if f.alpha then a else a ++ [0x3f800000])
    (evs : List Event) (hd : Delivers (writtenHeader f) px evs) :
    ∃ d, withAlphaPreference [writtenHeader f] none = .ok d ∧ d.dimensions = (w, h) ∧
      readImage le d (.ok evs) (w * h * ch * 4) = .ok (bytesOf le 4 vals) := by
  obtain ⟨f', h1, h2, h3, h4, h5⟩ := C98_write le color ch hc w h (by omega) vals hv hl h64
  rw [hf] at h1
  cases h1
  have hcol : (f.alpha = true ∧ ch = 4) ∨ (f.alpha = false ∧ ch = 3) := by
    cases color <;> simp [channelsOf] at hc
    · right; exact ⟨by cases hx : f.alpha with
        | true => rw [hx] at h4; simp at h4
        | false => rfl, by omega⟩
    · left; exact ⟨h4.2 rfl, by omega⟩
  obtain ⟨d, d1, d2, d3⟩ : ∃ d : Decoder, withAlphaPreference [writtenHeader f] none = .ok d ∧ d.header = writtenHeader f ∧
      d.colorType.channelCount = ch := by
    rcases hcol with ⟨ha, hch⟩ | ⟨ha, hch⟩
    · refine ⟨⟨writtenHeader f, none, true⟩, ?_, rfl, by subst hch; rfl⟩
      unfold withAlphaPreference writtenHeader
      rw [ha]; rfl
    · refine ⟨⟨writtenHeader f, none, false⟩, ?_, rfl, by subst hch; rfl⟩
      unfold withAlphaPreference writtenHeader
      rw [ha]; rfl
  refine ⟨d, d1, ?_, ?_⟩
  · unfold Decoder.dimensions
    rw [d2]
    simp only [writtenHeader, h2, h3]
    rw [Nat.mod_eq_of_lt (by omega), Nat.mod_eq_of_lt (by omega)]
  · have hcc := channelCount_cases d
    have hbpp : d.colorType.bytesPerPixel = ch * 4 := by omega
    have hpl : ∀ i j, i < w → j < h → (px i j).length = 4 ∧ ∀ c, c < ch → (px i j)[c]? = vals[(j * w + i) * ch + c]? := by
      intro i j hi hj
      have hce := chunk_end_le (ch := ch) (idx_lt hi hj)
      obtain ⟨a, a1, a2⟩ := hpx i j hi hj
      rw [h5 i j hi hj] at a1
      cases a1
      have hal : ((vals.drop ((j * w + i) * ch)).take ch).length = ch := by
        rw [List.length_take, List.length_drop]; omega
      have hget : ∀ c, c < ch → ((vals.drop ((j * w + i) * ch)).take ch)[c]? = vals[(j * w + i) * ch + c]? := by
        intro c hcc'
        rw [List.getElem?_take, if_pos hcc', List.getElem?_drop]
      rcases hcol with ⟨ha, hch⟩ | ⟨ha, hch⟩
      · rw [a2, ha, if_pos rfl]
        exact ⟨by omega, hget⟩
      · rw [a2, ha]
        simp only [Bool.false_eq_true, if_false]
        refine ⟨by rw [List.length_append, hal]; simp; omega, fun c hcc' => ?_⟩
        rw [List.getElem?_append_left (by omega)]
        exact hget c hcc'
    obtain ⟨samples, s1, s2, s3, s4⟩ := C98_pixels le d (by
        rw [d2]
        constructor <;> simp only [writtenHeader] <;> omega) px (by
        rw [d2]
        intro i j hi hj
        simp only [writtenHeader, h2, h3] at hi hj
        exact (hpl i j hi hj).1) evs (by rw [d2]; exact hd) (w * h * ch * 4) (by
        rw [d2, hbpp]
        simp only [writtenHeader, h2, h3]
        rw [Nat.mul_assoc]) h64
    rw [s1]
    congr 2
    rw [d2, d3] at s3 s4
    simp only [writtenHeader, h2, h3] at s3 s4
    apply List.ext_getElem?
    intro k
    by_cases hk : k < w * h * ch
    · have h0 : 0 < ch := by omega
      have hi : k / ch < w * h := by rw [Nat.mul_comm] at hk; exact Nat.div_lt_of_lt_mul hk
      have hw0 : 0 < w := Nat.pos_of_ne_zero (fun hz => by
        rw [hz, Nat.zero_mul] at hi; exact absurd hi (Nat.not_lt_zero _))
      have hx := Nat.mod_lt (k / ch) hw0
      have hy : k / ch / w < h := Nat.div_lt_of_lt_mul hi
      have e1 : k / ch / w * w + k / ch % w = k / ch := by rw [Nat.mul_comm]; exact Nat.div_add_mod _ _
      have e2 : k / ch * ch + k % ch = k := by rw [Nat.mul_comm]; exact Nat.div_add_mod _ _
      have g1 := (s4 _ _ _ hx hy (Nat.mod_lt k h0)).1 _ _ hx hy (by omega) (by omega)
      have g2 := (hpl _ _ hx hy).2 _ (Nat.mod_lt k h0)
      rw [e1, e2] at g1 g2
      rw [g1, g2]
    · rw [List.getElem?_eq_none (by omega), List.getElem?_eq_none (by omega)]

/-! Non-vacuity: a 2×1 display window at (10, 20), a data window of one pixel that covers its right pixel, and one
pixel outside; alpha dropped because it is not wanted. -/

example : readImage true ⟨⟨10, 20, 2, 1, 11, 20, 2, 1, false, ["A", "B", "G", "R"]⟩, some false, true⟩
    (.ok [⟨1, 0, [9, 9, 9, 9]⟩, ⟨0, 0, [1, 2, 3, 4]⟩]) 24 =
    .ok ([0, 0, 0, 0, 0, 0, 0, 0, 0, 0, 0, 0] ++ [1, 0, 0, 0, 2, 0, 0, 0, 3, 0, 0, 0]) := by decide +kernel

example : Bounded ⟨10, 20, 2, 1, 11, 20, 2, 1, false, ["A", "B", "G", "R"]⟩ := by constructor <;> decide

example : Delivers ⟨10, 20, 2, 1, 11, 20, 2, 1, false, ["A", "B", "G", "R"]⟩
    (fun i _ => if i = 0 then [1, 2, 3, 4] else [9, 9, 9, 9]) [⟨1, 0, [9, 9, 9, 9]⟩, ⟨0, 0, [1, 2, 3, 4]⟩] := by
  constructor
  · decide
  · decide
  · intro i j hi hj
    simp only at hi hj
    have : (i = 0 ∨ i = 1) ∧ j = 0 := by omega
    obtain ⟨rfl | rfl, rfl⟩ := this <;> simp

example : ∃ f, writeImage true (List.replicate 12 7) 1 1 .Rgb32F = .ok f ∧
    f.pixel 0 0 = .ok [117901063, 117901063, 117901063] := ⟨_, rfl, by decide +kernel⟩

end Verif.Exr
