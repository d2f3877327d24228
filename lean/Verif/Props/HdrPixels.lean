import Verif.Proofs.HdrScan
import Verif.Proofs.HdrHeader
import Verif.Props.PnmTotal
import Verif.Props.Utils
import Verif.Props.HdrTrunc
import Verif.Props.HdrFloat
import Verif.Props.HdrTotal

/-!
# C113: the HDR decoder shows what the scanlines say; C114: the header

The specification is `Verif.Spec.Hdr`.
-/

namespace Verif
namespace Hdr

open HdrSpec

theorem picture_snoc {lim w : Nat} {s rest rest' code : List UInt8} {rows : List (List Rgbe)} {row : List Rgbe}
    (h : Picture lim w s rows rest) (hr : rest = code ++ rest') (hl : row.length = w) (hs : Scanline lim code row) :
    Picture lim w s (rows ++ [row]) rest' := by
  induction h with
  | done => subst hr; exact .row hl hs .done
  | row h1 h2 _ ih => exact .row h1 h2 (ih hr)

theorem picture_last {lim w : Nat} : ∀ {rows : List (List Rgbe)} {s rest : List UInt8} {row : List Rgbe},
    Picture lim w s (rows ++ [row]) rest → ∃ code, Picture lim w s rows (code ++ rest) ∧ row.length = w ∧ Scanline lim code row := by
  intro rows
  induction rows with
  | nil =>
    intro s rest row h
    cases h with
    | @row code data _ _ _ h1 h2 h3 =>
      cases h3
      exact ⟨code, .done, h1, h2⟩
  | cons r rows ih =>
    intro s rest row h
    cases h with
    | row h1 h2 h3 =>
      obtain ⟨code, g1, g2, g3⟩ := ih h3
      exact ⟨code, .row h1 h2 g1, g2, g3⟩

/-- The buffer keeps its length. -/
theorem readRows_buf {α : Type} (f : Rgbe → α) {w : Nat} (hw : w ≠ 0) (hw64 : w < 2 ^ 64) {s : List UInt8} : ∀ {n : Nat} {o : List α}
    {b : List Rgbe} {s' : List UInt8}, readRows f w n s = .ok (o, b, s') → b.length = w := by
  intro n
  induction n with
  | zero => intro o b s' e; unfold readRows at e; rw [forRange_zero] at e; cases e; exact List.length_replicate
  | succ n ihn =>
    intro o b s' e
    have st : readRows f w (n + 1) s = (readRows f w n s >>= fun st => readScanline st.2.1 st.2.2 >>= fun x => .ok (st.1 ++ x.1.map f, x.1, x.2)) := rfl
    rw [st] at e
    obtain ⟨⟨o1, b1, s1⟩, k1, e⟩ := bind_some e
    obtain ⟨⟨b2, s2⟩, k2, e⟩ := bind_some e
    have hl := ihn k1
    dsimp only at k2 e
    cases e
    have := ((readScanline_iff (by intro h0; rw [h0] at hl; exact hw hl.symm) (by omega) _ _).1 k2).1
    exact this.trans hl

theorem readRows_iff {α : Type} (f : Rgbe → α) {w : Nat} (hw : w ≠ 0) (hw64 : w < 2 ^ 64) (s : List UInt8) : ∀ (h : Nat) (out : List α) (rest : List UInt8),
    (∃ buf, readRows f w h s = .ok (out, buf, rest) ∧ buf.length = w) ↔
      ∃ rows, rows.length = h ∧ Picture 7 w s rows rest ∧ out = rows.flatten.map f := by
  intro h
  induction h with
  | zero =>
    intro out rest
    unfold readRows
    rw [forRange_zero]
    constructor
    · rintro ⟨buf, e, -⟩
      cases e
      exact ⟨[], rfl, .done, rfl⟩
    · rintro ⟨rows, h1, h2, h3⟩
      have : rows = [] := List.length_eq_zero_iff.1 h1
      subst this
      cases h2
      exact ⟨_, by rw [h3]; rfl, List.length_replicate⟩
  | succ h ih =>
    intro out rest
    have step : readRows f w (h + 1) s = (readRows f w h s >>= fun st => readScanline st.2.1 st.2.2 >>= fun x => .ok (st.1 ++ x.1.map f, x.1, x.2)) := rfl
    rw [step]
    constructor
    · rintro ⟨buf, e, hb⟩
      obtain ⟨⟨o, b, s'⟩, e1, e⟩ := bind_some e
      obtain ⟨⟨b2, s2⟩, e2, e⟩ := bind_some e
      dsimp only at e2 e
      cases e
      have hbl : b.length = w := readRows_buf f hw hw64 e1
      obtain ⟨rows, g1, g2, g3⟩ := (ih o s').1 ⟨b, e1, hbl⟩
      obtain ⟨k1, code, k2, k3⟩ := (readScanline_iff (by intro h0; rw [h0] at hbl; exact hw hbl.symm) (by omega) _ _).1 e2
      dsimp only at k1 k2 k3
      refine ⟨rows ++ [buf], by rw [List.length_append, g1]; rfl, picture_snoc g2 k2 hb k3, ?_⟩
      rw [g3, List.flatten_append, List.map_append]
      simp
    · rintro ⟨rows, h1, h2, h3⟩
      have hne : rows ≠ [] := by intro h0; rw [h0] at h1; simp at h1
      obtain ⟨rs, row, hrow⟩ : ∃ rs row, rows = rs ++ [row] := ⟨_, _, (List.dropLast_append_getLast hne).symm⟩
      subst hrow
      obtain ⟨code, k1, k2, k3⟩ := picture_last h2
      obtain ⟨b, e1, hb⟩ := (ih (rs.flatten.map f) (code ++ rest)).2 ⟨rs, by simpa using h1, k1, rfl⟩
      refine ⟨row, ?_, k2⟩
      rw [e1, ok_bind]
      dsimp only
      rw [(readScanline_iff (by intro h0; rw [h0] at hb; exact hw hb.symm) (by omega) (code ++ rest) (row, rest)).2
        ⟨k2.trans hb.symm, code, rfl, k3⟩, ok_bind, h3, List.flatten_append, List.map_append]
      simp

theorem toHdr_value (p : Rgbe) : p.toHdr = ⟨.fin (value p.r p.e), .fin (value p.g p.e), .fin (value p.b p.e)⟩ := by
  unfold value
  by_cases he : p.e = 0
  · simp only [if_pos he]
    unfold Rgbe.toHdr
    rw [if_pos he]
  · simp only [if_neg he]
    exact toHdr_eq he

/-- C113: opening a Radiance file gives its dimensions and the position of its data (C114). Decoding then succeeds
exactly if the data begin with as many scanlines of the right width as the image has rows, coded by component or pixel by
pixel with repeat markers (at most seven in a row), and the image has exactly the pixels that those scanlines denote, with
the exact values of the format. -/
theorem C113_pixels (T : Text) (strict : Bool) (file : List UInt8) (w h : Nat) (px : List RgbF) :
    decode T strict file = .ok (w, h, px) ↔
      ∃ d, Decoder.new T strict file = .ok d ∧ d.width = w ∧ d.height = h ∧
        if w = 0 ∨ h = 0 then px = []
        else ∃ rows rest, Picture 7 w d.r rows rest ∧ rows.length = h ∧
          px = rows.flatten.map fun p => ⟨.fin (value p.r p.e), .fin (value p.g p.e), .fin (value p.b p.e)⟩ := by
  have hval : (fun p : Rgbe => (⟨.fin (value p.r p.e), .fin (value p.g p.e), .fin (value p.b p.e)⟩ : RgbF)) = Rgbe.toHdr :=
    funext fun p => (toHdr_value p).symm
  rw [hval]
  unfold decode
  constructor
  · intro e
    obtain ⟨d, h1, e⟩ := bind_some e
    obtain ⟨p, h2, e⟩ := bind_some e
    cases e
    have hfit := decoderNew_total T strict file
    rw [h1] at hfit
    refine ⟨d, h1, rfl, rfl, ?_⟩
    by_cases h0 : d.width = 0 ∨ d.height = 0
    · rw [if_pos h0]
      unfold Decoder.readTransform at h2
      rw [if_pos h0] at h2
      cases h2; rfl
    · rw [if_neg h0]
      have h0' : d.width ≠ 0 ∧ d.height ≠ 0 := not_or.1 h0
      rw [readTransform_eq _ _ (Nat.mul_ne_zero h0'.1 h0'.2)] at h2
      obtain ⟨⟨o, b, rest⟩, h3, h2⟩ := bind_some h2
      cases h2
      have hlen := readRows_buf Rgbe.toHdr h0'.1 (Nat.lt_trans hfit.1 (by decide)) h3
      obtain ⟨rows, g1, g2, g3⟩ := (readRows_iff Rgbe.toHdr h0'.1 (Nat.lt_trans hfit.1 (by decide)) d.r d.height _ rest).1 ⟨b, h3, hlen⟩
      exact ⟨rows, rest, g2, g1, g3⟩
  · rintro ⟨d, h1, rfl, rfl, h2⟩
    have hfit := decoderNew_total T strict file
    rw [h1] at hfit ⊢
    rw [ok_bind]
    by_cases h0 : d.width = 0 ∨ d.height = 0
    · rw [if_pos h0] at h2
      unfold Decoder.readTransform
      rw [if_pos h0, h2]
      rfl
    · rw [if_neg h0] at h2
      have h0' : d.width ≠ 0 ∧ d.height ≠ 0 := not_or.1 h0
      obtain ⟨rows, rest, g1, g2, g3⟩ := h2
      obtain ⟨b, e, -⟩ := (readRows_iff Rgbe.toHdr h0'.1 (Nat.lt_trans hfit.1 (by decide)) d.r d.height _ rest).2 ⟨rows, g2, g1, g3⟩
      rw [readTransform_eq _ _ (Nat.mul_ne_zero h0'.1 h0'.2), e]
      rfl

/-! ## The header -/

/-- C114: a Radiance file opens exactly if it has (in strict mode) the signature line, then header lines up to an empty
line, and the line of the dimensions, of an image of fewer than `2 ^ 64` bytes; the metadata are those of the header lines:
all attributes in order, and the products of the exposures, colour corrections and aspect ratios; the pixel data follow. -/
theorem C114_header (T : Text) (strict : Bool) (file : List UInt8) (d : Decoder) :
    Decoder.new T strict file = .ok d ↔
      ∃ s ls t line, Signed strict file s ∧ Lines ls s t ∧ Line line t d.r ∧ Accepted T strict (attributes T ls) ∧
        Dimensions T strict line d.width d.height ∧ d.width * d.height * 3 < 2 ^ 64 ∧ d.info = metadata T (attributes T ls) := by
  have hnew : metadata T [] = Meta.new := by
    unfold metadata numbers corrections valuesOf Meta.new; simp
  have hdim : ∀ w h line, Dimensions T strict line w h → checkDimensionOverflow w h 3 = .ok (decide (2 ^ 64 ≤ w * h * 3)) := by
    rintro w h line ⟨a, b, x, -, -, h1, h2⟩
    exact C35_check_dimension_overflow w h 3 (Pnm.parseU32_lt h2) (Pnm.parseU32_lt h1) (by decide)
  unfold Decoder.new
  constructor
  · intro e
    obtain ⟨s, h1, e⟩ := bind_some e
    obtain ⟨⟨m, t⟩, h2, e⟩ := bind_some e
    dsimp only at e
    have hs : s ≠ [] := by
      rintro rfl
      have := headerLoop_nil T strict (([] : List UInt8).length + 1) Meta.new
      rw [h2] at this
      exact this _ rfl
    rw [← hnew, headerLoop_iff T strict _ _ _ _ (by omega)] at h2
    obtain ⟨ls, k1, k2, k3⟩ := h2
    rcases h3 : readLine [] t with ⟨_ | line, r⟩
    · rw [h3] at e; cases e
    · rw [h3] at e
      dsimp only at e
      obtain ⟨⟨w, h⟩, h4, e⟩ := bind_some e
      dsimp only at e
      have hd := (parseDimensionsLine_iff T strict line w h).1 h4
      rw [hdim w h line hd, ok_bind] at e
      by_cases hov : 2 ^ 64 ≤ w * h * 3
      · rw [if_pos (by simpa using hov)] at e; cases e
      · rw [if_neg (by simpa using hov)] at e
        cases e
        exact ⟨s, ls, t, line, (readSignature_iff strict file hs).1 h1, k1, (readLine_iff _ _ _).1 h3, k2, hd, Nat.lt_of_not_le hov, k3⟩
  · rintro ⟨s, ls, t, line, h1, h2, h3, h4, h5, h6, h7⟩
    have hs : s ≠ [] := by
      cases h2 with
      | blank h => rw [(line_nil_iff _ _).1 h]; simp
      | line hne h _ =>
        rcases h.2 with h | ⟨h, h', -⟩
        · rw [h]; simp
        · rw [h]; exact h'
    rw [(readSignature_iff strict file hs).2 h1, ok_bind, ← hnew,
      (headerLoop_iff T strict (s.length + 1) [] s (d.info, t) (by omega)).2 ⟨ls, h2, h4, h7⟩, ok_bind]
    dsimp only
    rw [(readLine_iff _ _ _).2 h3]
    dsimp only
    rw [(parseDimensionsLine_iff T strict line _ _).2 h5, ok_bind]
    dsimp only
    rw [hdim _ _ line h5, ok_bind, if_neg (by simpa using h6)]

/-! ## Examples -/

/-- Text functions for ASCII text, with natural numbers for floats. -/
def demoText : Text := ⟨id, Pnm.trim, asciiWords, fun s => (Pnm.parseU32 s).map fun n => .fin n⟩

/-- Two rows of three pixels: the first with a repeat marker, the second by component. -/
def demoFile : List UInt8 := ascii "#?RADIANCE\n#made by hand\nFORMAT=32-bit_rle_rgbe\nEXPOSURE=2\nEXPOSURE= 3\nVIEW\n\n-Y 2 +X 3\n" ++
  [5, 6, 7, 136, 1, 1, 1, 2] ++ [2, 2, 0, 3, 131, 9, 1, 8, 130, 7, 131, 0, 3, 128, 129, 130]

set_option maxRecDepth 8192 in
example : (Decoder.new demoText true demoFile).map (fun d => (d.width, d.height, d.info.custom)) =
    .ok (3, 2, [(ascii "FORMAT", ascii "32-bit_rle_rgbe"), (ascii "EXPOSURE", ascii "2"), (ascii "EXPOSURE", ascii " 3"), ([], ascii "VIEW")]) := by
  decide +kernel

example : attributes demoText [ascii "#c", ascii "EXPOSURE=2", ascii "EXPOSURE= 3"] =
    [(ascii "EXPOSURE", ascii "2"), (ascii "EXPOSURE", ascii " 3")] := by decide +kernel

example : numbers demoText kExposure [(ascii "EXPOSURE", ascii "2"), (ascii "EXPOSURE", ascii " 3")] = [.fin 2, .fin 3] := by
  decide +kernel

example : (do let d ← Decoder.new demoText true demoFile; d.readTransform id) =
    .ok [⟨5, 6, 7, 136⟩, ⟨5, 6, 7, 136⟩, ⟨5, 6, 7, 136⟩, ⟨9, 8, 0, 128⟩, ⟨9, 7, 0, 129⟩, ⟨9, 7, 0, 130⟩] := by decide +kernel

example : Picture 7 3 ([5, 6, 7, 136, 1, 1, 1, 2] ++ [2, 2, 0, 3, 131, 9, 1, 8, 130, 7, 131, 0, 3, 128, 129, 130])
    [[⟨5, 6, 7, 136⟩, ⟨5, 6, 7, 136⟩, ⟨5, 6, 7, 136⟩], [⟨9, 8, 0, 128⟩, ⟨9, 7, 0, 129⟩, ⟨9, 7, 0, 130⟩]] [] := by
  refine .row rfl ?_ (.row (code := [2, 2, 0, 3, 131, 9, 1, 8, 130, 7, 131, 0, 3, 128, 129, 130]) (data := []) rfl ?_ .done)
  · exact .flat (p := ⟨5, 6, 7, 136⟩) (by decide) (by decide) (.again (n := 0) (k := 0) (lim := 7) (e := 2) (by decide) (by decide) .done)
  · exact .components (cr := [131, 9]) (cg := [1, 8, 130, 7]) (cb := [131, 0]) (ce := [3, 128, 129, 130]) (by decide) (by simp)
      (.run (n := 0) (k := 3) (by decide) (by decide) .done)
      (.samples (vals := [8]) (n := 2) (by decide) (by decide) (.run (n := 0) (k := 2) (by decide) (by decide) .done))
      (.run (n := 0) (k := 3) (by decide) (by decide) .done)
      (.samples (vals := [128, 129, 130]) (n := 0) (by decide) (by decide) .done)

example : value 5 136 = 5 := by unfold value; simp

end Hdr
end Verif
