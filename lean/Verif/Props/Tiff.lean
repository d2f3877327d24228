import Verif.Model.Tiff
import Verif.Proofs.FloatSigned
import Verif.Proofs.Buffer
import Verif.Proofs.Outcome
import Verif.Props.DecoderToImage
import Verif.Props.OpenExr

/-!
# C99: TIFF images

What the decoder and the encoder do around the `tiff` crate: which files are accepted, what is done with the
decoded samples (CMYK becomes RGB), how the limits are handed on, and that what is written is read back when the
crate gives back what it was given.
-/

namespace Verif.Tiff
open Verif

/-! ## Opening -/

/-- The supported combinations: colour and bits of the file, colour type of the image. -/
def table : List (TiffColor × ColorType) :=
  [(.gray 8, .L8), (.gray 16, .L16), (.grayA 8, .La8), (.grayA 16, .La16), (.rgb 8, .Rgb8), (.rgb 16, .Rgb16),
    (.rgba 8, .Rgba8), (.rgba 16, .Rgba16), (.cmyk 8, .Rgb8)]

theorem colorTypeOf_cases (tc : TiffColor) :
    (∃ color, (tc, color) ∈ table ∧ colorTypeOf tc = .ok color) ∨
    ((∀ color, (tc, color) ∉ table) ∧ colorTypeOf tc = errR .unsupported) := by
  unfold colorTypeOf
  split
  all_goals first
    | (left; exact ⟨_, by simp [table], rfl⟩)
    | skip
  right
  refine ⟨fun color hc => ?_, rfl⟩
  simp only [table, List.mem_cons, Prod.mk.injEq, List.not_mem_nil, or_false] at hc
  grind

theorem formats_ok : ∀ (l : List Nat), (∀ f ∈ l, f = 1) → forList l (fun f _ => checkSampleFormat f) () = .ok ()
  | [], _ => rfl
  | f :: l, h => by
    have : f = 1 := h f (by simp)
    subst this
    simp only [forList, checkSampleFormat, if_pos, ok_bind]
    exact formats_ok l fun g hg => h g (by simp [hg])

theorem formats_err : ∀ (l : List Nat), (∃ f ∈ l, f ≠ 1) →
    ∃ e, (e = Err.unsupported ∨ e = .decoding) ∧ forList l (fun f _ => checkSampleFormat f) () = errR e
  | [], h => by simp at h
  | f :: l, h => by
    by_cases hf : f = 1
    · subst hf
      have : ∃ f ∈ l, f ≠ 1 := by
        obtain ⟨g, hg, hne⟩ := h
        rcases List.mem_cons.mp hg with rfl | hg
        · exact absurd rfl hne
        · exact ⟨g, hg, hne⟩
      obtain ⟨e, he, hq⟩ := formats_err l this
      refine ⟨e, he, ?_⟩
      simp only [forList, checkSampleFormat, if_pos, ok_bind]
      exact hq
    · simp only [forList, checkSampleFormat, if_neg hf]
      split
      · exact ⟨_, Or.inl rfl, rfl⟩
      · exact ⟨_, Or.inr rfl, rfl⟩

/-- A file is opened exactly when the crate can tell its size and colour, its samples are unsigned integers (or it
does not say) and the combination of colour and bits is supported; the decoder then has the size of the file, the
colour type of the table, and reports CMYK files as such. -/
theorem C99_open (c : Crate) (w h : Nat) (tc : TiffColor) (color : ColorType) (orig : ExtendedColorType) :
    (c.dimensions = .ok (w, h) ∧ c.colortype = .ok tc ∧
      (c.sampleFormat = .ok none ∨ ∃ fs, c.sampleFormat = .ok (some fs) ∧ ∀ f ∈ fs, f = 1) ∧
      (tc, color) ∈ table ∧ orig = if tc = .cmyk 8 then .Cmyk8 else color.toExtended) ↔
    (c.colortype = .ok tc ∧
      ∃ d, new (.ok c) = .ok d ∧ d.crate = c ∧ d.width = w ∧ d.height = h ∧ d.colorType = color ∧
        d.originalColorType = orig ∧ d.limits = none) := by
  have htab : ∀ c1 c2, (tc, c1) ∈ table → (tc, c2) ∈ table → c1 = c2 := by
    intro c1 c2 h1 h2
    simp only [table, List.mem_cons, Prod.mk.injEq, List.not_mem_nil, or_false] at h1 h2
    grind
  constructor
  · rintro ⟨hd, hc, hs, ht, ho⟩
    refine ⟨hc, ?_⟩
    have hct : colorTypeOf tc = .ok color := by
      rcases colorTypeOf_cases tc with ⟨c2, h1, h2⟩ | ⟨h1, _⟩
      · rw [h2, htab _ _ h1 ht]
      · exact absurd ht (h1 _)
    have hnew : new (.ok c) = .ok ⟨c, w, h, color, decide (tc = .cmyk 8), none⟩ := by
      unfold new
      rcases hs with hs | ⟨fs, hs, hf⟩
      · simp only [mapErr, hd, hc, hs, ok_bind, hct]
      · simp only [mapErr, hd, hc, hs, ok_bind, hct, formats_ok fs hf]
    refine ⟨_, hnew, rfl, rfl, rfl, rfl, ?_, rfl⟩
    rw [ho]
    simp only [Decoder.originalColorType, decide_eq_true_eq]
  · rintro ⟨hc, d, hd, rfl, rfl, rfl, rfl, rfl, _⟩
    unfold new at hd
    simp only [mapErr, ok_bind, hc] at hd
    cases hdim : d.crate.dimensions with
    | error e => rw [hdim] at hd; simp [errR] at hd
    | ok wh =>
      obtain ⟨w, h⟩ := wh
      rw [hdim] at hd
      cases hsf : d.crate.sampleFormat with
      | error e => rw [hsf] at hd; simp [errR] at hd
      | ok fs =>
        rw [hsf] at hd
        have hform : fs = none ∨ ∃ l, fs = some l ∧ ∀ f ∈ l, f = 1 := by
          cases fs with
          | none => exact Or.inl rfl
          | some l =>
            right
            refine ⟨l, rfl, ?_⟩
            by_contra hne
            push Not at hne
            obtain ⟨e, _, he⟩ := formats_err l hne
            simp only [ok_bind, he, errR] at hd
            exact absurd hd (by simp)
        have hd' : (do let color ← colorTypeOf tc
                       (.ok ⟨d.crate, w, h, color, decide (tc = TiffColor.cmyk 8), none⟩ : R Decoder)) = .ok d := by
          rcases hform with rfl | ⟨l, rfl, hl⟩
          · simpa only [ok_bind] using hd
          · simpa only [ok_bind, formats_ok l hl] using hd
        rcases colorTypeOf_cases tc with ⟨c2, h1, h2⟩ | ⟨h1, h2⟩
        · rw [h2] at hd'
          simp only [ok_bind, Except.ok.injEq] at hd'
          rw [← hd']
          refine ⟨rfl, hc, ?_, h1, ?_⟩
          · rcases hform with rfl | ⟨l, rfl, hl⟩
            · exact Or.inl rfl
            · exact Or.inr ⟨l, rfl, hl⟩
          · simp only [Decoder.originalColorType, decide_eq_true_eq]
        · rw [h2] at hd'; simp [errR] at hd'

/-- Opening never panics. -/
theorem C99_open_total (c : Except TiffErr Crate) : OkOr (fun _ => True) (fun _ => True) (new c) := by
  have hm : ∀ {α : Type} (x : Except TiffErr α), OkOr (fun _ => True) (fun _ => True) (mapErr TiffErr.decode x) := by
    intro α x; cases x <;> trivial
  unfold new
  refine (hm _).bind fun c _ => (hm _).bind fun wh _ => ?_
  obtain ⟨w, h⟩ := wh
  refine (hm _).bind fun tc _ => (hm _).bind fun fs _ => ?_
  have hc : OkOr (fun _ => True) (fun _ : Decoder => True) (do
      let color ← colorTypeOf tc
      (.ok ⟨c, w, h, color, decide (tc = .cmyk 8), none⟩ : R Decoder)) := by
    rcases colorTypeOf_cases tc with ⟨_, _, h2⟩ | ⟨_, h2⟩ <;> rw [h2] <;> trivial
  cases fs with
  | none => exact hc
  | some l =>
    refine OkOr.bind (P := fun _ => True) ?_ fun _ _ => hc
    by_cases hl : ∀ f ∈ l, f = 1
    · rw [formats_ok l hl]; trivial
    · push Not at hl
      obtain ⟨e, _, he⟩ := formats_err l hl
      rw [he]; trivial

/-! ## Reading -/

/-- Files that are not CMYK: `read_image` gives the bytes of the decoded samples, whatever is in the buffer. -/
theorem C99_pixels (le : Bool) (d : Decoder) (buf : List UInt8) (v : Samples) (hd : d.cmyk = false)
    (hb : buf.length = d.width * d.height * d.colorType.bytesPerPixel) (h64 : buf.length < 2 ^ 64)
    (hv : d.crate.readImage d.limits = .ok v) (hn : v.values.length * v.size = buf.length) :
    d.readImage le buf = .ok (bytesOf le v.size v.values) := by
  have ht : totalBytes d.width d.height d.colorType.bytesPerPixel = buf.length := by
    unfold totalBytes satMul
    rw [← hb, Nat.min_eq_left (by omega)]
  unfold Decoder.readImage
  rw [ht, hv]
  simp only [decide_true, assertR_true, ok_bind, mapErr, hd, Bool.and_false, Bool.false_eq_true, if_false,
    Exr.length_bytesOf, hn]

/-- What the crate refuses is an error of `read_image`. -/
theorem C99_refused (le : Bool) (d : Decoder) (buf : List UInt8) (e : TiffErr)
    (hb : buf.length = d.width * d.height * d.colorType.bytesPerPixel) (h64 : buf.length < 2 ^ 64)
    (hv : d.crate.readImage d.limits = .error e) : ∃ e', d.readImage le buf = errR e' := by
  have ht : totalBytes d.width d.height d.colorType.bytesPerPixel = buf.length := by
    unfold totalBytes satMul
    rw [← hb, Nat.min_eq_left (by omega)]
  unfold Decoder.readImage
  rw [ht, hv]
  simp only [decide_true, assertR_true, ok_bind]
  exact ⟨_, rfl⟩

/-! ## CMYK -/

/-- `n` is the RGB value for an ink of `c` and black of `k`: `(255 - c) * (255 - k) / 255` rounded down, or one
less when that is an integer. -/
def CmykValue (c k n : Nat) : Prop :=
  n = (255 - c) * (255 - k) / 255 ∨ 255 ∣ (255 - c) * (255 - k) ∧ n + 1 = (255 - c) * (255 - k) / 255

/-- The value computed for one ink. -/
def cmykOut (c k : Nat) : Nat :=
  Fl.toUSat 8 (Fl.mul f32 (Fl.sub f32 (.fin 255) (Fl.ofNat f32 c))
    (Fl.sub f32 (.fin 1) (Fl.div f32 (Fl.ofNat f32 k) (.fin 255))))

theorem cmykOut_spec {c k : Nat} (hc : c ≤ 255) (hk : k ≤ 255) :
    CmykValue c k (cmykOut c k) ∧ (k = 0 → cmykOut c k = 255 - c) := by
  have hcq : (c : ℚ) ≤ 255 := by exact_mod_cast hc
  have hkq : (k : ℚ) ≤ 255 := by exact_mod_cast hk
  have hc0 : (0 : ℚ) ≤ c := Nat.cast_nonneg c
  have hk0 : (0 : ℚ) ≤ k := Nat.cast_nonneg k
  have ea : Fl.sub f32 (.fin 255) (Fl.ofNat f32 c) = .fin ((255 - c : ℕ) : ℚ) := by
    rw [ofNat32 (by omega), fl_sub, show (255 : ℚ) - c = ((255 - c : ℕ) : ℚ) by rw [Nat.cast_sub hc]; norm_num, ofRat32,
      rnd_nat32 (by omega)]
    rw [abs_of_nonneg (by positivity)]
    calc ((255 - c : ℕ) : ℚ) ≤ 255 := by exact_mod_cast Nat.sub_le 255 c
      _ ≤ 2 ^ 127 := by norm_num
  set a : ℚ := ((255 - c : ℕ) : ℚ) with ha
  have ha0 : 0 ≤ a := by positivity
  have ha1 : a ≤ 255 := by rw [ha]; exact_mod_cast Nat.sub_le 255 c
  set x : ℚ := (k : ℚ) / 255 with hx
  have hx0 : 0 ≤ x := by positivity
  have hx1 : x ≤ 1 := by rw [hx, div_le_one (by norm_num)]; exact hkq
  have et : Fl.div f32 (Fl.ofNat f32 k) (.fin 255) = .fin (f32.rnd x) := by
    rw [ofNat32 (by omega), fl_div _ (by norm_num), ofRat32]
    rw [abs_of_nonneg hx0]
    exact hx1.trans (by norm_num)
  have r1 : f32.rnd 1 = 1 := by simpa using rnd_nat32 (n := 1) (by norm_num)
  have r0 : f32.rnd 0 = 0 := by simp
  set t := f32.rnd x with ht
  have ht0 : 0 ≤ t := f32.rnd_nonneg hx0
  have ht1 : t ≤ 1 := by rw [← r1]; exact f32.rnd_mono' (by decide) hx1
  have etn := rnd_err32 x
  rw [← ht, abs_of_nonneg hx0, abs_le] at etn
  have ek : Fl.sub f32 (.fin 1) (.fin t) = .fin (f32.rnd (1 - t)) := by
    rw [fl_sub, ofRat32]
    rw [abs_of_nonneg (by linarith)]
    exact (by linarith : 1 - t ≤ 1).trans (by norm_num)
  set kf := f32.rnd (1 - t) with hkf
  have hkf0 : 0 ≤ kf := f32.rnd_nonneg (by linarith)
  have hkf1 : kf ≤ 1 := by rw [← r1]; exact f32.rnd_mono' (by decide) (by linarith)
  have ekn := rnd_err32 (1 - t)
  rw [← hkf, abs_of_nonneg (show (0 : ℚ) ≤ 1 - t by linarith), abs_le] at ekn
  have hp0 : 0 ≤ a * kf := mul_nonneg ha0 hkf0
  have hp1 : a * kf ≤ 255 := by
    calc a * kf ≤ 255 * 1 := mul_le_mul ha1 hkf1 hkf0 (by norm_num)
      _ = 255 := by norm_num
  have ev : Fl.mul f32 (.fin a) (.fin kf) = .fin (f32.rnd (a * kf)) := by
    rw [fl_mul, ofRat32]
    rw [abs_of_nonneg hp0]
    exact hp1.trans (by norm_num)
  set v := f32.rnd (a * kf) with hv
  have hv0 : 0 ≤ v := f32.rnd_nonneg hp0
  have r255 : f32.rnd 255 = 255 := by simpa using rnd_nat32 (n := 255) (by norm_num)
  have hv1 : v ≤ 255 := by rw [← r255]; exact f32.rnd_mono' (by decide) hp1
  have evn := rnd_err32 (a * kf)
  rw [← hv, abs_of_nonneg hp0, abs_le] at evn
  have hout : cmykOut c k = ⌊v⌋.toNat := by
    unfold cmykOut
    rw [ea, et, ek, ev]
    simp only [Fl.toUSat]
    apply Nat.min_eq_left
    have : ⌊v⌋ ≤ 255 := Int.floor_le_iff.mpr (by push_cast; linarith)
    omega
  have hfl0 : 0 ≤ ⌊v⌋ := Int.floor_nonneg.mpr hv0
  constructor
  · have hkfe : |kf - (1 - x)| ≤ 3 / 2 ^ 24 := by
      rw [abs_le]
      norm_num at etn ekn ⊢
      constructor <;> linarith
    have hpe : |a * kf - a * (1 - x)| ≤ 765 / 2 ^ 24 := by
      rw [← mul_sub, abs_mul, abs_of_nonneg ha0]
      calc a * |kf - (1 - x)| ≤ 255 * (3 / 2 ^ 24) := mul_le_mul ha1 hkfe (abs_nonneg _) (by norm_num)
        _ = 765 / 2 ^ 24 := by norm_num
    rw [abs_le] at hpe
    obtain ⟨N, hN⟩ : ∃ N : ℕ, N = (255 - c) * (255 - k) := ⟨_, rfl⟩
    have hy : a * (1 - x) = (N : ℚ) / 255 := by
      rw [hN, Nat.cast_mul, ← ha, Nat.cast_sub hk, hx]
      push_cast
      ring
    rw [hy] at hpe
    have hN2 : (N : ℚ) = 255 * ((N / 255 : ℕ) : ℚ) + ((N % 255 : ℕ) : ℚ) := by
      exact_mod_cast (Nat.div_add_mod N 255).symm
    have hr : N % 255 < 255 := Nat.mod_lt _ (by norm_num)
    unfold CmykValue
    rw [hout, ← hN, Nat.dvd_iff_mod_eq_zero]
    generalize N / 255 = q at hN2 ⊢
    generalize N % 255 = r at hN2 hr ⊢
    have hrq : (r : ℚ) ≤ 254 := by exact_mod_cast Nat.le_of_lt_succ hr
    have hlow : (q : ℚ) + r / 255 - 1 / 512 ≤ v := by
      norm_num at hpe evn ⊢
      linarith [hpe.1, evn.1]
    have hhigh : v ≤ (q : ℚ) + r / 255 + 1 / 512 := by
      norm_num at hpe evn ⊢
      linarith [hpe.2, evn.2]
    by_cases h0 : r = 0
    · subst h0
      have hle : ⌊v⌋ ≤ (q : ℤ) := by
        have : ⌊v⌋ < (q : ℤ) + 1 := by
          rw [Int.floor_lt]; push_cast; push_cast at hhigh; linarith
        omega
      have hge : (q : ℤ) - 1 ≤ ⌊v⌋ := by
        rw [Int.le_floor]; push_cast; push_cast at hlow; linarith
      rcases eq_or_lt_of_le hle with he | hl
      · left; rw [he]; rfl
      · right; exact ⟨rfl, by omega⟩
    · left
      have h1 : (1 : ℚ) ≤ r := by exact_mod_cast Nat.pos_of_ne_zero h0
      have : ⌊v⌋ = (q : ℤ) := by
        rw [Int.floor_eq_iff]
        push_cast
        constructor <;> linarith
      rw [this]; rfl
  · intro hk
    subst hk
    have e1 : x = 0 := by rw [hx]; norm_num
    have e2 : t = 0 := by rw [ht, e1, r0]
    have e3 : kf = 1 := by rw [hkf, e2]; norm_num [r1]
    have e4 : v = a := by rw [hv, e3, mul_one, ha, rnd_nat32 (by omega)]
    rw [hout, e4, ha, Int.floor_natCast]
    rfl

theorem cmykToRgb_eq (c m y k : Nat) :
    cmykToRgb [c, m, y, k] = .ok [UInt8.ofNat (cmykOut c k), UInt8.ofNat (cmykOut m k), UInt8.ofNat (cmykOut y k)] := rfl

theorem cmykOut_lt {c k : Nat} (hc : c ≤ 255) (hk : k ≤ 255) : (UInt8.ofNat (cmykOut c k)).toNat = cmykOut c k := by
  have : (255 - c) * (255 - k) ≤ 255 * 255 := Nat.mul_le_mul (by omega) (by omega)
  rcases (cmykOut_spec hc hk).1 with h | ⟨_, h⟩ <;>
    exact UInt8.toNat_ofNat_of_lt' (by show _ < 256; omega)

/-- CMYK files: the pixels become RGB, every value being that of its ink and the black of the same pixel. -/
theorem C99_cmyk (le : Bool) (d : Decoder) (buf : List UInt8) (v : Samples) (hd : d.cmyk = true) (hc : d.colorType = .Rgb8)
    (hb : buf.length = d.width * d.height * 3) (h64 : buf.length < 2 ^ 64)
    (hv : d.crate.readImage d.limits = .ok v) (hu : v.isU8 = true) (hn : v.values.length = d.width * d.height * 4)
    (h8 : ∀ a ∈ v.values, a ≤ 255) :
    ∃ out, d.readImage le buf = .ok out ∧ out.length = buf.length ∧
      ∀ i j c k, i < d.width * d.height → j < 3 → v.values[4 * i + j]? = some c → v.values[4 * i + 3]? = some k →
        ∃ n, out[3 * i + j]? = some n ∧ CmykValue c k n.toNat ∧ (k = 0 → n.toNat = 255 - c) := by
  have hbpp : d.colorType.bytesPerPixel = 3 := by rw [hc]; rfl
  have ht : totalBytes d.width d.height d.colorType.bytesPerPixel = buf.length := by
    unfold totalBytes satMul
    rw [hbpp, ← hb, Nat.min_eq_left (by omega)]
  have hcl : (chunksExact 4 v.values).length = d.width * d.height := by
    rw [length_chunksExact, hn, Nat.mul_div_cancel _ (by omega)]
  have hchunk : ∀ i, i < d.width * d.height → (chunksExact 4 v.values)[i]? = some ((v.values.drop (i * 4)).take 4) := by
    intro i hi
    exact getElem?_chunksExact (by rw [hn, Nat.mul_div_cancel _ (by omega)]; exact hi)
  have hentry : ∀ i, i < d.width * d.height → ∃ c m y k, (v.values.drop (i * 4)).take 4 = [c, m, y, k] := by
    intro i hi
    have hl : ((v.values.drop (i * 4)).take 4).length = 4 := by
      rw [List.length_take, List.length_drop]; omega
    match (v.values.drop (i * 4)).take 4, hl with
    | [c, m, y, k], _ => exact ⟨c, m, y, k, rfl⟩
  have hloop := forList_inv (xs := chunksExact 4 v.values)
    (f := fun cmyk (s : List UInt8 × Nat) => do writeAll s (← cmykToRgb cmyk)) (s := (buf, 0))
    (fun pre _ s => s.2 = 3 * pre.length ∧ s.1.length = buf.length ∧
      ∀ i < pre.length, ∀ j < 3, ∀ c k, ((v.values.drop (i * 4)).take 4)[j]? = some c →
        ((v.values.drop (i * 4)).take 4)[3]? = some k → s.1[3 * i + j]? = some (UInt8.ofNat (cmykOut c k)))
    ⟨rfl, rfl, by simp⟩ (by
      rintro pre x post hpx ⟨b, p⟩ ⟨h1, h2, h3⟩
      dsimp only at h1 h2 h3
      have hpl : pre.length < d.width * d.height := by rw [← hcl, ← hpx]; simp
      have hx : x = (v.values.drop (pre.length * 4)).take 4 := by
        have := hchunk pre.length hpl
        rw [← hpx] at this
        simpa using this
      obtain ⟨c, m, y, k, hq⟩ := hentry pre.length hpl
      rw [hx, hq]
      rw [cmykToRgb_eq]
      simp only [ok_bind]
      unfold writeAll
      dsimp only
      rw [if_pos (by simp only [List.length_cons, List.length_nil]; omega)]
      refine ⟨_, rfl, by simp only [List.length_cons, List.length_nil, List.length_append]; omega,
        by dsimp only; rw [length_overwrite (by simp only [List.length_cons, List.length_nil]; omega), h2], ?_⟩
      intro i hi j hj c' k' hc' hk'
      dsimp only
      rw [getElem?_overwrite (by simp only [List.length_cons, List.length_nil]; omega)]
      simp only [List.length_cons, List.length_nil]
      rw [List.length_append, List.length_singleton] at hi
      by_cases hip : i = pre.length
      · subst hip
        rw [hq] at hc' hk'
        simp only [List.getElem?_cons_succ, List.getElem?_cons_zero, Option.some.injEq] at hk'
        rw [if_neg (by omega), if_pos (by omega), show 3 * pre.length + j - p = j by omega]
        have : j = 0 ∨ j = 1 ∨ j = 2 := by omega
        rcases this with rfl | rfl | rfl <;> simp at hc' ⊢ <;> rw [hc', hk']
      · rw [if_pos (by omega)]
        exact h3 i (by omega) j hj c' k' hc' hk')
  obtain ⟨⟨out, pos⟩, e1, _, e3, e4⟩ := hloop
  dsimp only at e3 e4
  rw [hcl] at e4
  refine ⟨out, ?_, e3, ?_⟩
  · unfold Decoder.readImage
    rw [ht, hv]
    simp only [decide_true, assertR_true, ok_bind, mapErr, hd, hu, Bool.and_true, if_true, e1]
  · intro i j c k hi hj hjc hjk
    have hc8 : c ≤ 255 := h8 c (List.mem_of_getElem? hjc)
    have hk8 : k ≤ 255 := h8 k (List.mem_of_getElem? hjk)
    refine ⟨UInt8.ofNat (cmykOut c k), e4 i hi j hj c k ?_ ?_, ?_⟩
    · rw [List.getElem?_take, if_pos (by omega), List.getElem?_drop, ← hjc]; congr 1; omega
    · rw [List.getElem?_take, if_pos (by omega), List.getElem?_drop, ← hjk]; congr 1; omega
    · rw [cmykOut_lt hc8 hk8]; exact cmykOut_spec hc8 hk8

/-- Not always the value rounded down: 65 of black and no other ink is 189, not 190. -/
theorem C99_cmyk_exact_false :
    ¬ ∀ c k : Nat, c ≤ 255 → k ≤ 255 →
      (cmykToRgb [c, c, c, k]).map (·.map (·.toNat)) = .ok (List.replicate 3 ((255 - c) * (255 - k) / 255)) := by
  intro h
  have := h 0 65 (by omega) (by omega)
  revert this
  decide +kernel

/-! ## Limits -/

/-- `set_limits`: an image larger than allowed is refused; otherwise the crate gets as much memory for the decoded
samples as they may need (for CMYK 16 bytes per pixel), and the rest of `max_alloc` for everything else; the two
are never more than `max_alloc` together. -/
theorem C99_limits (d : Decoder) (l : Limits) (hl : ∀ m, l.maxAlloc = some m → m < 2 ^ 64) :
    ((∃ m, l.maxImageWidth = some m ∧ m < d.width) ∨ (∃ m, l.maxImageHeight = some m ∧ m < d.height) →
      d.setLimits l = errR .limitsDimension) ∧
    ((∀ m, l.maxImageWidth = some m → d.width ≤ m) → (∀ m, l.maxImageHeight = some m → d.height ≤ m) →
      ∃ d' L, d.setLimits l = .ok d' ∧ d'.limits = some L ∧
        d'.crate = d.crate ∧ d'.width = d.width ∧ d'.height = d.height ∧ d'.colorType = d.colorType ∧ d'.cmyk = d.cmyk ∧
        L.decodingBuffer = min (l.maxAlloc.getD (2 ^ 64 - 1))
          (d.width * d.height * if d.cmyk then 16 else d.colorType.bytesPerPixel) ∧
        L.decodingBuffer + L.intermediate = l.maxAlloc.getD (2 ^ 64 - 1) ∧ L.ifdValue = L.intermediate) := by
  have hm : l.maxAlloc.getD (2 ^ 64 - 1) < 2 ^ 64 := by
    cases h : l.maxAlloc with
    | none => simp
    | some m => simpa using hl m h
  constructor
  · intro h
    unfold Decoder.setLimits Limits.checkDimensions
    rcases h with ⟨m, h1, h2⟩ | ⟨m, h1, h2⟩
    · rw [h1]; simp only [gt_iff_lt, if_pos h2, errR]; rfl
    · rw [h1]
      cases l.maxImageWidth with
      | none => simp only [gt_iff_lt, if_pos h2, errR]; rfl
      | some m' =>
        by_cases hw : d.width > m'
        · simp only [if_pos hw, errR]; rfl
        · simp only [if_neg hw, gt_iff_lt, if_pos h2, errR]; rfl
  · intro h1 h2
    have hcd : l.checkDimensions d.width d.height = .ok () := by
      unfold Limits.checkDimensions
      cases hw : l.maxImageWidth with
      | none =>
        cases hh : l.maxImageHeight with
        | none => rfl
        | some n => simp only [gt_iff_lt, if_neg (Nat.not_lt.mpr (h2 n hh))]; rfl
      | some m =>
        cases hh : l.maxImageHeight with
        | none => simp only [gt_iff_lt, if_neg (Nat.not_lt.mpr (h1 m hw))]; rfl
        | some n => simp only [gt_iff_lt, if_neg (Nat.not_lt.mpr (h1 m hw)), if_neg (Nat.not_lt.mpr (h2 n hh))]; rfl
    unfold Decoder.setLimits
    rw [hcd]
    simp only [ok_bind]
    rw [subC_ok (Nat.sub_le _ _)]
    simp only [ok_bind]
    refine ⟨_, _, rfl, rfl, rfl, rfl, rfl, rfl, rfl, ?_, ?_, rfl⟩
    · dsimp only
      unfold Decoder.totalBytesBuffer satMul
      omega
    · dsimp only
      omega

/-! ## Orientation -/

/-- The orientation that a tag stands for. -/
def orientationOf : Option (Option Nat) → Orientation
  | some (some n) => (Orientation.fromExif n).getD .NoTransforms
  | _ => .NoTransforms

/-- The orientation tag is honoured: values 1 to 8 are the EXIF orientations; no tag, a tag that is not an integer
and other values are no transformation. -/
theorem C99_orientation (d : Decoder) (t : Option (Option Nat)) (ht : d.crate.orientation = .ok t) :
    d.orientation = .ok (orientationOf t) := by
  unfold Decoder.orientation
  rw [ht]
  simp only [mapErr, ok_bind]
  match t with
  | none => rfl
  | some none => rfl
  | some (some n) =>
    simp only [Option.bind_some, orientationOf]
    by_cases hn : n ≤ 255
    · rw [Nat.min_eq_left hn]
    · rw [Nat.min_eq_right (by omega)]
      have : Orientation.fromExif n = none := by
        unfold Orientation.fromExif
        split <;> first | omega | rfl
      rw [this]; rfl

/-! ## Writing -/

/-- The colour types that can be written: what the crate is told, the size of a sample, the channels. -/
def kindOf : ExtendedColorType → Option (Kind × Nat × Nat)
  | .L8 => some (.gray8, 1, 1)
  | .Rgb8 => some (.rgb8, 1, 3)
  | .Rgba8 => some (.rgba8, 1, 4)
  | .L16 => some (.gray16, 2, 1)
  | .Rgb16 => some (.rgb16, 2, 3)
  | .Rgba16 => some (.rgba16, 2, 4)
  | _ => none

theorem bufferSize_eq {color : ExtendedColorType} {w h k : Nat} (hw : w < 2 ^ 32) (hk : k ≤ 128)
    (hb : color.bitsPerPixel = k * 8) (hs : w * h * k < 2 ^ 64) : color.bufferSize w h = .ok (w * h * k) := by
  unfold ExtendedColorType.bufferSize
  rw [hb]
  have : w * (k * 8) ≤ w * 1024 := Nat.mul_le_mul_left _ (by omega)
  rw [mulC_ok (by omega)]; simp only [ok_bind]
  rw [addC_ok (by omega)]; simp only [ok_bind]
  have e1 : (w * (k * 8) + 7) / 8 = w * k := by rw [← Nat.mul_assoc]; omega
  rw [e1]
  unfold satMul
  have e2 : w * k * h = w * h * k := by rw [Nat.mul_assoc, Nat.mul_comm k h, ← Nat.mul_assoc]
  rw [e2, Nat.min_eq_left (by omega)]

theorem bytes_toNat : ∀ (le : Bool) (vals : List Nat), (∀ v ∈ vals, v < 256) →
    (bytesOf le 1 vals).map (·.toNat) = vals
  | _, [], _ => rfl
  | le, v :: vals, h => by
    have hv := h v (by simp)
    have ih := bytes_toNat le vals fun a ha => h a (by simp [ha])
    have : (if le then leBytes 1 v else beBytes 1 v) = [UInt8.ofNat v] := by
      cases le <;> simp [leBytes, beBytes]
    show List.map _ ((if le then leBytes 1 v else beBytes 1 v) ++ bytesOf le 1 vals) = _
    rw [this, List.map_append, ih]
    simp [UInt8.toNat_ofNat_of_lt' (show v < UInt8.size from hv)]

/-- Writing an image of a supported colour type hands the crate exactly the size and the samples; the crate's verdict
is the result. A misaligned buffer of 16-bit samples is refused. -/
theorem C99_write (le aligned : Bool) (create : Except TiffErr Unit) (write : Written → Except TiffErr Unit)
    (color : ExtendedColorType) (kind : Kind) (sz ch w h : Nat) (hk : kindOf color = some (kind, sz, ch)) (hw : w < 2 ^ 32)
    (vals : List Nat) (hv : ∀ v ∈ vals, v < 256 ^ sz) (hn : vals.length = w * h * ch) (h64 : w * h * (ch * sz) < 2 ^ 64) :
    encode le aligned create write (bytesOf le sz vals) w h color =
      (match create with
      | .error e => errR e.encode
      | .ok () =>
        if sz = 2 ∧ aligned = false then errR .parameter
        else match write ⟨kind, w, h, vals⟩ with
          | .ok () => .ok ()
          | .error e => errR e.encode) := by
  have hlen : (bytesOf le sz vals).length = w * h * (ch * sz) := by
    rw [Exr.length_bytesOf, hn, Nat.mul_assoc]
  have hbs : color.bufferSize w h = .ok (w * h * (ch * sz)) := by
    refine bufferSize_eq hw ?_ ?_ h64 <;> cases color <;> simp [kindOf] at hk <;> obtain ⟨_, rfl, rfl⟩ := hk <;> first | omega | rfl
  unfold encode
  rw [hbs]
  simp only [ok_bind, hlen, decide_true, assertR_true]
  have hcase : sz = 1 ∨ sz = 2 := by cases color <;> simp [kindOf] at hk <;> omega
  have h16 : sz = 2 → u8SliceAsU16 le aligned (bytesOf le sz vals) = if aligned = false then errR .parameter else .ok vals := by
    rintro rfl
    unfold u8SliceAsU16
    cases aligned
    · simp
    · rw [if_pos ⟨rfl, by rw [Exr.length_bytesOf]; omega⟩, if_neg (by simp), DynamicImage.samplesOf_bytesOf le 2 (by omega) _ hv]
  have h8 : sz = 1 → (bytesOf le sz vals).map (·.toNat) = vals := by
    rintro rfl
    exact bytes_toNat le vals (by simpa using hv)
  cases create with
  | error e => rfl
  | ok u =>
    simp only [mapErr, ok_bind]
    cases color <;> simp [kindOf] at hk <;> obtain ⟨rfl, rfl, rfl⟩ := hk
    all_goals first
      | (simp only [h8 rfl]
         rw [if_neg (by simp)]
         cases write _ <;> rfl)
      | (rw [h16 rfl]
         cases aligned
         · rfl
         · simp only [Bool.true_eq_false, if_false, ok_bind, and_false]
           cases write _ <;> rfl)

/-- Other colour types are refused, and a buffer of the wrong length panics, as documented. -/
theorem C99_write_other (le aligned : Bool) (write : Written → Except TiffErr Unit)
    (color : ExtendedColorType) (w h n : Nat) (buf : List UInt8) (hn : color.bufferSize w h = .ok n) :
    (kindOf color = none → buf.length = n → encode le aligned (.ok ()) write buf w h color = errR .unsupported) ∧
    (buf.length ≠ n → encode le aligned (.ok ()) write buf w h color = panicR) := by
  unfold encode
  rw [hn]
  constructor
  · intro hk hl
    simp only [ok_bind, hl, decide_true, assertR_true]
    cases color <;> simp [kindOf] at hk <;> rfl
  · intro hl
    simp only [ok_bind, decide_eq_false (Ne.symm hl), assertR_false]
    rfl

/-- The colour the crate finds in a file it wrote. -/
def colorOf : Kind → TiffColor
  | .gray8 => .gray 8
  | .rgb8 => .rgb 8
  | .rgba8 => .rgba 8
  | .gray16 => .gray 16
  | .rgb16 => .rgb 16
  | .rgba16 => .rgba 16

/-- The crate reads back what it wrote. -/
structure Faithful (c : Crate) (W : Written) : Prop where
  dims : c.dimensions = .ok (W.width, W.height)
  color : c.colortype = .ok (colorOf W.kind)
  format : c.sampleFormat = .ok none ∨ ∃ fs, c.sampleFormat = .ok (some fs) ∧ ∀ f ∈ fs, f = 1
  samples : ∀ l, c.readImage l = .ok ⟨if W.kind ∈ [Kind.gray8, .rgb8, .rgba8] then 1 else 2,
    decide (W.kind ∈ [Kind.gray8, .rgb8, .rgba8]), W.samples⟩

/-- An image written and read back, by a crate that gives back what it was given, has the same size, colour type and
bytes. -/
theorem C99_roundtrip (le : Bool) (color : ColorType) (kind : Kind) (sz ch w h : Nat)
    (hk : kindOf color.toExtended = some (kind, sz, ch)) (hw : w < 2 ^ 32) (vals : List Nat)
    (hv : ∀ v ∈ vals, v < 256 ^ sz) (hn : vals.length = w * h * ch) (h64 : w * h * (ch * sz) < 2 ^ 64) (W : Written)
    (write : Written → Except TiffErr Unit) (hwr : ∀ W', write W' = .ok () → W' = W)
    (he : encode le true (.ok ()) write (bytesOf le sz vals) w h color.toExtended = .ok ()) (c : Crate) (hc : Faithful c W) :
    ∃ d, new (.ok c) = .ok d ∧ d.width = w ∧ d.height = h ∧ d.colorType = color ∧
      ∀ buf, buf.length = w * h * (ch * sz) → d.readImage le buf = .ok (bytesOf le sz vals) := by
  rw [C99_write le true _ write _ kind sz ch w h hk hw vals hv hn h64] at he
  simp only [Bool.true_eq_false, and_false, if_false] at he
  have hW : W = ⟨kind, w, h, vals⟩ := by
    cases hx : write ⟨kind, w, h, vals⟩ with
    | ok u => exact (hwr _ hx).symm
    | error e => rw [hx] at he; simp [errR] at he
  subst hW
  obtain ⟨h1, h2, h3, h4⟩ := hc
  dsimp only at h1 h2 h4
  have htab : (colorOf kind, color) ∈ table ∧ colorOf kind ≠ .cmyk 8 := by
    cases color <;> simp [kindOf, ColorType.toExtended] at hk <;> obtain ⟨rfl, rfl, rfl⟩ := hk <;> simp [colorOf, table]
  obtain ⟨_, d, e1, e2, e3, e4, e5, e6, e7⟩ :=
    (C99_open c w h (colorOf kind) color _).1 ⟨h1, h2, h3, htab.1, rfl⟩
  refine ⟨d, e1, e3, e4, e5, fun buf hb => ?_⟩
  have hcm : d.cmyk = false := by
    rw [if_neg htab.2] at e6
    unfold Decoder.originalColorType at e6
    cases hx : d.cmyk with
    | false => rfl
    | true =>
      rw [hx] at e6
      cases color <;> simp [ColorType.toExtended] at e6
  have hsz : (if kind ∈ [Kind.gray8, .rgb8, .rgba8] then 1 else 2) = sz ∧ color.bytesPerPixel = ch * sz := by
    cases color <;> simp [kindOf, ColorType.toExtended] at hk <;> obtain ⟨rfl, rfl, rfl⟩ := hk <;> exact ⟨rfl, rfl⟩
  have := C99_pixels le d buf _ hcm (by rw [e3, e4, e5, hb, hsz.2]) (by rw [hb]; exact h64) (by rw [e2]; exact h4 _)
    (by dsimp only; rw [hn, hsz.1, hb, Nat.mul_assoc])
  rw [this]
  dsimp only
  rw [hsz.1]

/-! ## Examples -/

/-- A 2 x 1 CMYK file. -/
def exCmyk : Crate where
  dimensions := .ok (2, 1)
  colortype := .ok (.cmyk 8)
  sampleFormat := .ok (some [1, 1, 1, 1])
  orientation := .ok (some (some 6))
  readImage := fun _ => .ok ⟨1, true, [10, 20, 30, 0, 0, 100, 255, 65]⟩

/-- It is opened, turned as its tag says, and read as RGB: the second pixel has the value 189 for no ink and a black
of 65. -/
example : ((do
    let d ← new (.ok exCmyk)
    let d ← d.setLimits ⟨some 2, none, some 100⟩
    .ok (d.limits, (← d.orientation).toExif, ← d.readImage true (List.replicate 6 7))) : R (Option TiffLimits × Nat × List UInt8)) =
      .ok (some ⟨32, 68, 68⟩, 6, [245, 235, 225, 189, 115, 0]) := by decide +kernel

example : (new (.ok exCmyk)).map (fun d => (d.width, d.height, d.colorType, d.originalColorType)) = .ok (2, 1, .Rgb8, .Cmyk8) := rfl

/-- The same file with signed samples is refused. -/
example : (new (.ok { exCmyk with sampleFormat := .ok (some [1, 2]) })).map (·.width) = errR .unsupported := rfl

/-- The crate that has written `W`. -/
def reader (W : Written) : Crate where
  dimensions := .ok (W.width, W.height)
  colortype := .ok (colorOf W.kind)
  sampleFormat := .ok none
  orientation := .ok none
  readImage := fun _ => .ok ⟨if W.kind ∈ [Kind.gray8, .rgb8, .rgba8] then 1 else 2,
    decide (W.kind ∈ [Kind.gray8, .rgb8, .rgba8]), W.samples⟩

example (W : Written) : Faithful (reader W) W := ⟨rfl, rfl, Or.inl rfl, fun _ => rfl⟩

/-- A 1 x 2 image of 16-bit grey: what is written, and what is read back. -/
example :
    encode true true (.ok ()) (fun W => if W = ⟨.gray16, 1, 2, [258, 772]⟩ then .ok () else .error .usage) [2, 1, 4, 3] 1 2 .L16 =
      .ok () ∧
    (do (← new (.ok (reader ⟨.gray16, 1, 2, [258, 772]⟩))).readImage true [0, 0, 0, 0]) = .ok [2, 1, 4, 3] := by
  decide +kernel

end Verif.Tiff
