import Verif.Model.Boxed
import Verif.Props.Tiff
import Verif.Props.Webp

/-!
# C105: a decoder in a box answers like the decoder
-/

namespace Verif.Boxed
open Verif

/-- A call of a method of a decoder. -/
inductive Call where
  | dimensions | colorType | originalColorType | iccProfile | exifMetadata | orientation | totalBytes
  | readImage (len : Nat)
  | setLimits (l : Limits)

/-- What a call returns. -/
inductive Answer where
  | dimensions (r : Nat × Nat)
  | colorType (r : R ColorType)
  | originalColorType (r : R ExtendedColorType)
  | bytes (r : R (Option (List UInt8)))
  | orientation (r : R Orientation)
  | totalBytes (r : R Nat)
  | image (r : R (List UInt8))
  | limits (r : R Unit)
  deriving DecidableEq

/-- One call: the answer and the new state. -/
def call {σ : Type} (d : Methods σ) (s : σ) : Call → Answer × σ
  | .dimensions => (.dimensions (d.dimensions s), s)
  | .colorType => (.colorType (d.colorType s), s)
  | .originalColorType => (.originalColorType (d.originalColorType s), s)
  | .iccProfile => (.bytes (d.iccProfile s).1, (d.iccProfile s).2)
  | .exifMetadata => (.bytes (d.exifMetadata s).1, (d.exifMetadata s).2)
  | .orientation => (.orientation (d.orientation s).1, (d.orientation s).2)
  | .totalBytes => (.totalBytes (d.totalBytes s), s)
  | .readImage len => (.image (d.readImage s len), s)
  | .setLimits l => (.limits (d.setLimits s l).1, (d.setLimits s l).2)

/-- The answers to a sequence of calls. -/
def run {σ : Type} (d : Methods σ) : List Call → σ → List Answer
  | [], _ => []
  | c :: cs, s => (call d s c).1 :: run d cs (call d s c).2

/-- Any decoder, any sequence of calls but of `orientation`: a box, or a box in a box, gives the same answers. -/
theorem C105_methods {σ : Type} (d : Methods σ) (calls : List Call) (h : Call.orientation ∉ calls) (s : σ) :
    run (boxed d) calls s = run d calls s ∧ run (boxed (boxed d)) calls s = run d calls s := by
  induction calls generalizing s with
  | nil => exact ⟨rfl, rfl⟩
  | cons c cs ih =>
    simp only [List.mem_cons, not_or] at h
    have hc : call (boxed d) s c = call d s c ∧ call (boxed (boxed d)) s c = call d s c := by
      cases c <;> first | exact ⟨rfl, rfl⟩ | exact absurd rfl h.1
    obtain ⟨i1, i2⟩ := ih h.2 (call d s c).2
    constructor
    · simp only [run, hc.1, i1]
    · simp only [run, hc.2, i2]

/-- The cached orientation, if any, is that of the EXIF chunk. -/
def Valid {σ : Type} (s : ExifState σ) : Prop :=
  s.cached = none ∨ ∃ c, s.exif = .ok c ∧ s.cached = some ((c.bind Orientation.fromExifChunk).getD .NoTransforms)

/-- JPEG and WebP: also when `orientation` is among the calls, in any order. -/
theorem C105_jpeg_webp {σ : Type} (m : Methods σ) (calls : List Call) (rest : σ) (exif : Except Err (Option (List UInt8))) :
    run (boxed (exifMethods m)) calls ⟨rest, exif, none⟩ = run (exifMethods m) calls ⟨rest, exif, none⟩ := by
  have main : ∀ (calls : List Call) (s t : ExifState σ), s.rest = t.rest → s.exif = t.exif → Valid s → Valid t →
      run (boxed (exifMethods m)) calls s = run (exifMethods m) calls t := by
    intro calls
    induction calls with
    | nil => intros; rfl
    | cons c cs ih =>
      intro ⟨r, e, a⟩ ⟨r', e', b⟩ h1 h2 hs ht
      dsimp only at h1 h2
      subst h1 h2
      have hx : Valid (σ := σ) ⟨r, e, (Webp.exifMetadata e a).2⟩ := by
        cases e with
        | error e => exact hs
        | ok c => exact Or.inr ⟨c, rfl, rfl⟩
      have hy : Valid (σ := σ) ⟨r, e, (Webp.exifMetadata e b).2⟩ := by
        cases e with
        | error e => exact ht
        | ok c => exact Or.inr ⟨c, rfl, rfl⟩
      have key : (call (boxed (exifMethods m)) ⟨r, e, a⟩ c).1 = (call (exifMethods m) ⟨r, e, b⟩ c).1 ∧
          (call (boxed (exifMethods m)) ⟨r, e, a⟩ c).2.rest = (call (exifMethods m) ⟨r, e, b⟩ c).2.rest ∧
          (call (boxed (exifMethods m)) ⟨r, e, a⟩ c).2.exif = (call (exifMethods m) ⟨r, e, b⟩ c).2.exif ∧
          Valid (call (boxed (exifMethods m)) ⟨r, e, a⟩ c).2 ∧ Valid (call (exifMethods m) ⟨r, e, b⟩ c).2 := by
        cases c with
        | dimensions => exact ⟨rfl, rfl, rfl, hs, ht⟩
        | colorType => exact ⟨rfl, rfl, rfl, hs, ht⟩
        | originalColorType => exact ⟨rfl, rfl, rfl, hs, ht⟩
        | iccProfile => exact ⟨rfl, rfl, rfl, hs, ht⟩
        | totalBytes => exact ⟨rfl, rfl, rfl, hs, ht⟩
        | readImage len => exact ⟨rfl, rfl, rfl, hs, ht⟩
        | setLimits l => exact ⟨rfl, rfl, rfl, hs, ht⟩
        | exifMetadata =>
          refine ⟨?_, rfl, rfl, hx, hy⟩
          cases e <;> rfl
        | orientation =>
          cases e with
          | error e =>
            rcases ht with hb | ⟨c, hc, _⟩
            · dsimp only at hb
              subst hb
              exact ⟨rfl, rfl, rfl, hs, Or.inl rfl⟩
            · cases hc
          | ok c =>
            rcases ht with hb | ⟨c', hc, hb⟩
            · dsimp only at hb
              subst hb
              exact ⟨rfl, rfl, rfl, hx, hy⟩
            · dsimp only at hb hc
              cases hc
              subst hb
              exact ⟨rfl, rfl, rfl, hx, Or.inr ⟨c, rfl, rfl⟩⟩
      obtain ⟨k1, k2, k3, k4, k5⟩ := key
      simp only [run, k1]
      congr 1
      exact ih _ _ k2 k3 k4 k5
  exact main calls _ _ rfl rfl (Or.inl rfl) (Or.inl rfl)

/-- TIFF: in a box no TIFF image has an orientation, whatever its tag says. -/
theorem C105_tiff (le : Bool) (icc : Tiff.Decoder → Option (List UInt8)) (d : Tiff.Decoder) :
    ((boxed (tiffMethods le icc)).orientation d).1 = .ok .NoTransforms := rfl

/-- The decoder of a TIFF file with orientation tag `n`. -/
def tagged (n : Nat) : Tiff.Decoder :=
  { crate := { dimensions := .ok (1, 1), colortype := .ok (.gray 8), sampleFormat := .ok none,
               orientation := .ok (some (some n)), readImage := fun _ => .ok ⟨1, true, [0]⟩ }
    width := 1, height := 1, colorType := .L8, cmyk := false, limits := none }

example : Tiff.new (.ok (tagged 6).crate) = .ok (tagged 6) := rfl

/-- The claim for all decoders is false: `orientation` of a TIFF decoder in a box, as `ImageReader::into_decoder` returns
it, is not that of the decoder. -/
theorem C105_tiff_false :
    ¬ ∀ (le : Bool) (icc : Tiff.Decoder → Option (List UInt8)) (d : Tiff.Decoder) (calls : List Call),
      run (boxed (tiffMethods le icc)) calls d = run (tiffMethods le icc) calls d := by
  intro h
  have h1 := h true (fun _ => none) (tagged 6) [.orientation]
  have h2 : run (tiffMethods true fun _ => none) [.orientation] (tagged 6) = [.orientation (.ok .Rotate90)] := rfl
  have h3 : run (boxed (tiffMethods true fun _ => none)) [.orientation] (tagged 6) = [.orientation (.ok .NoTransforms)] := rfl
  rw [h2, h3] at h1
  simp at h1

example : run (exifMethods (tiffMethods true fun _ => none)) [.orientation, .exifMetadata, .dimensions]
    ⟨tagged 1, .ok (some Webp.exChunk), none⟩ =
    [.orientation (.ok .Rotate90), .bytes (.ok (some Webp.exChunk)), .dimensions (1, 1)] := by decide +kernel

end Verif.Boxed
