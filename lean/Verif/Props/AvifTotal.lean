import Verif.Props.Avif
import Verif.Proofs.Outcome

/-!
# C91, C92: AVIF pictures that are refused, alpha planes of any size, and the range of 16-bit pixels
-/

namespace Verif
namespace Avif

theorem zipWrite_len {ρ β : Type} {f : ρ → β → R β} {E : Err → Prop} {P : β → Prop} : ∀ (rs : List ρ) (bs : List β), (∀ b ∈ bs, P b) →
    (∀ r b, P b → OkOr E P (f r b)) → OkOr E (fun out => out.length = bs.length ∧ ∀ b ∈ out, P b) (zipWrite f rs bs)
  | [], bs, hb, _ => by cases bs <;> exact ⟨rfl, hb⟩
  | _ :: _, [], hb, _ => ⟨rfl, hb⟩
  | r :: rs, b :: bs, hb, hf => by
    rw [zipWrite]
    refine (hf r b (hb b (by simp))).bind fun b' hb' => ?_
    refine (zipWrite_len rs bs (fun x hx => hb x (by simp [hx])) hf).bind fun bs' ⟨h1, h2⟩ => ?_
    refine ⟨by simp [h1], fun x hx => ?_⟩
    rcases List.mem_cons.mp hx with rfl | hx
    · exact hb'
    · exact h2 x hx

theorem zipChunks_len {ρ : Type} {n : Nat} (hn : 0 < n) {E : Err → Prop} {f : ρ → List Nat → R (List Nat)} (rs : List ρ) (buf : List Nat)
    (hf : ∀ r b, b.length = n → OkOr E (fun o => o.length = n) (f r b)) : OkOr E (fun out => out.length = buf.length) (zipChunks n f rs buf) := by
  unfold zipChunks
  rw [assert_ok (by simpa using Nat.ne_of_gt hn), ok_bind]
  have hch : ∀ b ∈ chunksExact n buf, b.length = n := by
    intro b hb
    obtain ⟨k, hk⟩ := List.getElem?_of_mem hb
    obtain ⟨hk', -⟩ := List.getElem?_eq_some_iff.mp hk
    rw [length_chunksExact] at hk'
    rw [getElem?_chunksExact hk'] at hk
    rw [← Option.some.inj hk, List.length_take, List.length_drop]
    have h1 : (k + 1) * n ≤ buf.length / n * n := Nat.mul_le_mul_right _ hk'
    have h2 : buf.length / n * n ≤ buf.length := Nat.div_mul_le_self _ _
    have h3 : (k + 1) * n = k * n + n := by ring
    omega
  refine (zipWrite_len (P := fun b => b.length = n) rs _ hch hf).bind fun out hout => ?_
  obtain ⟨h1, h2⟩ := hout
  show (out.flatten ++ _).length = _
  have hfl : out.flatten.length = out.length * n := by
    clear h1
    induction out with
    | nil => simp
    | cons a l ih =>
      rw [List.flatten_cons, List.length_append, h2 a (by simp), ih (fun x hx => h2 x (by simp [hx])), List.length_cons]
      ring
  rw [List.length_append, hfl, h1, length_chunksExact, List.length_drop]
  have h2 : buf.length / n * n ≤ buf.length := Nat.div_mul_le_self _ _
  omega

/-- Alpha planes of any size can be put into the pixels. -/
theorem squash_total {E : Err → Prop} {w : Nat} (hw : 0 < w) (rows : List (List Nat)) (buf : List Nat) :
    OkOr E (fun out => out.length = buf.length) (squash w rows buf) := by
  unfold squash
  apply zipChunks_len (by omega)
  intro row b hb
  rw [← hb]
  apply zipChunks_len (by omega)
  intro a px hpx
  show (px.set 3 a).length = 4
  rw [List.length_set, hpx]

theorem transmute_total {E : Err → Prop} (m : Machine) {p : Plane} {w h : Nat} (hp : 0 < p.stride) (hw : 0 < w) (hwh : w * h < 2 ^ 64) :
    OkOr E (fun r => 0 < r.2) (transmute m p w h) := by
  unfold transmute
  split
  · show 0 < p.stride / 2
    omega
  · unfold reshapePlane
    rw [mulC_ok hwh, ok_bind, assert_ok (by simpa using Nat.ne_of_gt hw), ok_bind, assert_ok (by simpa using Nat.ne_of_gt hp), ok_bind]
    refine OkOr.bind (P := fun _ => True) ?_ fun s _ => hw
    refine (zipWrite_len (P := fun _ => True) _ _ (by simp) (fun r b _ => ?_)).bind fun rows _ => trivial
    exact (zipWrite_len (P := fun _ => True) _ _ (by simp) (f := fun (s : Nat) _ => .ok s) (fun _ _ _ => trivial)).mono (by simp)

/-- **C91** No picture with planes of the right sizes makes the decoder panic, whatever the matrix, the layout and the range say, and whatever the alpha
picture is (another size, another depth, any contents; the AV1 decoder never delivers a row length of 0): the buffer is filled or an error is
returned. -/
theorem C91_total (m : Machine) (d : Decoder) (wf : d.picture.Wf m.le) (ha : ∀ a, d.alpha = some a → 0 < a.y.stride) (buf : List UInt8)
    (hb : buf.length = d.picture.width * d.picture.height * d.colorType.bytesPerPixel) :
    (∃ out, d.readImage m buf = .ok out ∧ out.length = buf.length) ∨ (∃ e, d.readImage m buf = errR e) := by
  have hct : d.colorType.bytesPerPixel = if d.picture.depth = 8 then 4 else 8 := by
    unfold Decoder.colorType
    split <;> rfl
  have htotal : totalBytes d.picture.width d.picture.height d.colorType.bytesPerPixel = d.picture.width * d.picture.height * d.colorType.bytesPerPixel :=
    totalBytes_eq wf.size (by rw [hct]; split <;> omega)
  have hpos : ¬(d.picture.width = 0 ∨ d.picture.height = 0) := by
    have := wf.width.1
    have := wf.height.1
    omega
  suffices h : OkOr (fun _ => True) (fun out => out.length = buf.length) (d.readImage m buf) by
    rcases hr : d.readImage m buf with e | out
    · rw [hr] at h
      cases e with
      | panic => exact h.elim
      | err e => exact Or.inr ⟨e, rfl⟩
    · rw [hr] at h
      exact Or.inl ⟨out, rfl, h⟩
  have h0 := wf.width.1
  have hwh := wf.size
  let d' : Decoder := ⟨d.picture, none⟩
  have ha' : d'.AlphaOk m.le := by intro a h; simp [d'] at h
  unfold Decoder.readImage
  dsimp only
  rw [htotal, assert_ok (by simpa using hb), ok_bind, assert_ok (by simpa using wf.depth), ok_bind, if_neg hpos]
  rcases hmx : getMatrix d.picture.matrix with e | mx
  · cases e with
    | panic => cases h : d.picture.matrix <;> rw [h] at hmx <;> simp [getMatrix, errR] at hmx
    | err e => trivial
  rw [ok_bind]
  split
  · trivial
  next hid =>
  have hm : mx = .identity → d.picture.layout = .i444 := by
    intro h
    by_contra h'
    exact hid ⟨h, h'⟩
  by_cases h8 : d.picture.depth = 8
  · rw [if_pos h8]
    rw [hct, if_pos h8] at hb
    obtain ⟨g, hp, e⟩ := paint8 (d := d') wf h8 ha' hm (samples8 buf) (by simp only [samples8, List.length_map]; rw [hb]; ring)
    obtain ⟨o, he, ho⟩ := bind_eq_ok.mp e
    dsimp only [d'] at he ho
    rw [he, ok_bind]
    have hol : o.length = buf.length := by
      have h1 : o.map UInt8.ofNat = (canvas d.picture.width d.picture.height g).map UInt8.ofNat := by simpa [ok_bind] using ho
      have h2 := congrArg List.length h1
      rw [List.length_map, List.length_map, canvas_length hp.length] at h2
      rw [h2, hb]
      show d.picture.width * 4 * d.picture.height = _
      ring
    cases hal : d.alpha with
    | none =>
      show (o.map UInt8.ofNat).length = _
      rw [List.length_map, hol]
    | some a =>
      dsimp only
      split
      · trivial
      · rw [rowsOf_ok (ha a hal), ok_bind]
        refine (squash_total h0 _ o).bind fun out hout => ?_
        show (out.map UInt8.ofNat).length = _
        rw [List.length_map, hout, hol]
  · rw [if_neg h8]
    rw [hct, if_neg h8] at hb
    obtain ⟨g, hp, e⟩ := paint16 (d := d') wf h8 ha' hm (samplesOf m.le 2 buf) (by
      rw [DynamicImage.length_samplesOf m.le (n := d.picture.width * 4 * d.picture.height) (by omega)]
      rw [hb]; ring)
    suffices h : OkOr (fun _ => True) (fun out => out.length = d.picture.width * 4 * d.picture.height)
        (process16 m d.picture d.alpha (samplesOf m.le 2 buf) d.picture.range mx) by
      refine h.bind fun out ho => ?_
      show (bytesOf m.le 2 out).length = _
      rw [DynamicImage.length_bytesOf, ho, hb]
      ring
    dsimp only [d'] at e
    unfold process16 at e ⊢
    obtain ⟨⟨yy, ys⟩, hy, e⟩ := bind_eq_ok.mp e
    rw [hy, ok_bind]
    obtain ⟨⟨⟨u, us⟩, ⟨v, vs⟩⟩, huv, e⟩ := bind_eq_ok.mp e
    dsimp only
    rw [huv, ok_bind]
    dsimp only
    obtain ⟨o, ho, e⟩ := bind_eq_ok.mp e
    rw [ho, ok_bind]
    have hol : o.length = d.picture.width * 4 * d.picture.height := by
      have h1 : o.map (expand d.picture.depth) = (canvas d.picture.width d.picture.height g).map (expand d.picture.depth) := by simpa [ok_bind] using e
      have h2 := congrArg List.length h1
      rw [List.length_map, List.length_map, canvas_length hp.length] at h2
      exact h2
    cases hal : d.alpha with
    | none =>
      show (o.map (expand d.picture.depth)).length = _
      rw [List.length_map, hol]
    | some a =>
      dsimp only
      split
      · trivial
      · refine OkOr.bind (P := fun out => out.length = o.length) ?_ fun out hout => ?_
        · refine (transmute_total m (ha a hal) h0 (by omega)).bind fun r hr => ?_
          rw [rowsOf_ok hr, ok_bind]
          exact squash_total h0 _ o
        · show (out.map (expand d.picture.depth)).length = _
          rw [List.length_map, hout, hol]

/-- The matrices that are refused. -/
def Coefficients.Refused (c : Coefficients) : Prop :=
  c = .reserved ∨ c = .ycgco ∨ c = .bt2020Cl ∨ c = .st2085 ∨ c = .chromaticityNcl ∨ c = .chromaticityCl ∨ c = .ictcp

/-- **C91** Which error: matrices outside the table are unsupported; RGB planes (the identity matrix) must be 4:4:4. -/
theorem C91_refused (m : Machine) (d : Decoder) (wf : d.picture.Wf m.le) (buf : List UInt8)
    (hb : buf.length = d.picture.width * d.picture.height * d.colorType.bytesPerPixel) :
    (d.picture.matrix.Refused → d.readImage m buf = errR .unsupported) ∧
    (d.picture.matrix = .identity → d.picture.layout ≠ .i444 → d.readImage m buf = errR .decoding) := by
  have hct : d.colorType.bytesPerPixel = if d.picture.depth = 8 then 4 else 8 := by
    unfold Decoder.colorType
    split <;> rfl
  have htotal : totalBytes d.picture.width d.picture.height d.colorType.bytesPerPixel = d.picture.width * d.picture.height * d.colorType.bytesPerPixel :=
    totalBytes_eq wf.size (by rw [hct]; split <;> omega)
  have hpos : ¬(d.picture.width = 0 ∨ d.picture.height = 0) := by
    have := wf.width.1
    have := wf.height.1
    omega
  unfold Decoder.readImage
  dsimp only
  rw [htotal, assert_ok (by simpa using hb), ok_bind, assert_ok (by simpa using wf.depth), ok_bind, if_neg hpos]
  constructor
  · rintro (h | h | h | h | h | h | h) <;> rw [h] <;> rfl
  · intro h hl
    rw [h]
    show (if Matrix.identity = Matrix.identity ∧ d.picture.layout ≠ Layout.i444 then errR Err.decoding else _ : R (List UInt8)) = _
    rw [if_pos ⟨rfl, hl⟩]

/-- **C92** (what holds of it) Samples of 10-bit and 12-bit pictures are moved to the high bits of 16: black stays 0, the order of samples is kept, and the
result is less than one unit of the picture's depth below the sample scaled to the full range.
Missing: the result is not the nearest 16-bit number, see `C92_white_false`. -/
theorem C92_scale_partial {depth : Nat} (hd : depth = 10 ∨ depth = 12) (s : Nat) (hs : s < 2 ^ depth) :
    (expand depth s : ℚ) ≤ s * (65535 / (2 ^ depth - 1)) ∧ s * (65535 / (2 ^ depth - 1)) - expand depth s < (2 : ℚ) ^ (16 - depth) ∧
    ∀ t < s, expand depth t < expand depth s := by
  rw [expand_eq hd hs]
  have h1 : (s : ℚ) ≤ 2 ^ depth - 1 := by
    have : (s : ℚ) + 1 ≤ 2 ^ depth := by exact_mod_cast hs
    linarith
  have h0 : (0 : ℚ) ≤ s := Nat.cast_nonneg _
  refine ⟨?_, ?_, ?_⟩
  · rcases hd with rfl | rfl <;> push_cast <;> norm_num <;> linarith
  · rcases hd with rfl | rfl
    · have h2 : (s : ℚ) ≤ 1023 := h1.trans (by norm_num)
      push_cast
      norm_num
      linarith
    · have h2 : (s : ℚ) ≤ 4095 := h1.trans (by norm_num)
      push_cast
      norm_num
      linarith
  · intro t ht
    rw [expand_eq hd (by omega)]
    exact Nat.mul_lt_mul_of_pos_right ht (by positivity)

/-- One pixel. -/
def onePixel (depth : Nat) (c : Coefficients) (y u v : List UInt8) : Picture := ⟨1, 1, depth, .i444, .pc, c, ⟨y, y.length⟩, ⟨u, u.length⟩, ⟨v, v.length⟩⟩

theorem onePixel_wf8 (le : Bool) (c : Coefficients) (y u v : UInt8) : (onePixel 8 c [y] [u] [v]).Wf le := by
  have h : ∀ b : UInt8, Plane.Holds le 8 ⟨[b], 1⟩ 1 1 := fun b => ⟨rfl, by norm_num, by simp [sampleBytes], by
    intro x hx y hy
    obtain rfl : x = 0 := by omega
    obtain rfl : y = 0 := by omega
    exact b.toNat_lt⟩
  exact ⟨by simp [onePixel], by simp [onePixel], by simp [onePixel], by simp [onePixel], h y, fun _ => h u, fun _ => h v⟩

/-- **C90 is false** for three matrices that the decoder accepts: BT.470M, SMPTE 170M (the matrix of BT.601) and SMPTE 240M. A full-range pixel with
samples 128, 128, 200 should show red 228.8, 228.9 and 241.5; it shows 240, 255 and 255. -/
theorem C90_matrix_false (c : Coefficients) (hc : c = .bt470m ∨ c = .st170m ∨ c = .st240m) :
    ∃ d : Decoder, d.picture.matrix = c ∧ d.picture.Wf true ∧ d.AlphaOk true ∧ ∃ out, d.readImage ⟨true, fun _ => true⟩ [0, 0, 0, 0] = .ok out ∧
      ∃ q, d.picture.colour true 0 0 = some q ∧ 10 < (outSample true 8 1 out 0 0 0 : ℚ) - 255 * limited (q 0) := by
  refine ⟨⟨onePixel 8 c [128] [128] [200], none⟩, rfl, onePixel_wf8 _ _ _ _ _, by intro a h; simp at h, ?_⟩
  rcases hc with rfl | rfl | rfl
  · exact ⟨[240, 93, 128, 255], by decide +kernel, _, rfl, by decide +kernel⟩
  · exact ⟨[255, 112, 128, 255], by decide +kernel, _, rfl, by decide +kernel⟩
  · exact ⟨[255, 112, 128, 255], by decide +kernel, _, rfl, by decide +kernel⟩

/-- **C92 is false** A white, opaque pixel of a full-range 10-bit picture is neither white nor opaque in 16 bits: every channel is 65472, not 65535. -/
theorem C92_white_false :
    ∃ d : Decoder, d.picture.Wf true ∧ d.AlphaOk true ∧ d.picture.Known ∧ d.picture.colour true 0 0 = some (fun _ => 1) ∧ d.alpha = none ∧
      ∃ out, d.readImage ⟨true, fun _ => true⟩ (List.replicate 8 0) = .ok out ∧ ∀ c < 4, outSample true 10 1 out 0 0 c = 65472 := by
  refine ⟨⟨onePixel 10 .identity [255, 3] [255, 3] [255, 3], none⟩, ?_, by intro a h; simp at h, Or.inl ⟨rfl, rfl⟩, ?_, rfl, ?_⟩
  · have h : Plane.Holds true 10 ⟨[255, 3], 2⟩ 1 1 := ⟨rfl, by decide, by decide, by
      intro x hx y hy
      obtain rfl : x = 0 := by omega
      obtain rfl : y = 0 := by omega
      decide⟩
    exact ⟨by decide, by decide, by decide, by decide, h, fun _ => h, fun _ => h⟩
  · show some _ = _
    congr 1
    funext c
    revert c
    decide +kernel
  · exact ⟨[192, 255, 192, 255, 192, 255, 192, 255], by decide +kernel, by decide +kernel⟩

/-! ## Concrete cases -/

/-- A 3x3 picture of 10 bits with 4:2:0 chroma, rows of 8 bytes (luma) and 4 bytes (chroma), limited range, BT.709, with an alpha plane. -/
def sample420 : Decoder :=
  ⟨⟨3, 3, 10, .i420, .tv, .bt709, ⟨[64, 0, 100, 1, 172, 3, 9, 9, 0, 1, 0, 2, 0, 3, 9, 9, 64, 0, 100, 1, 172, 3, 9, 9], 8⟩,
    ⟨[0, 2, 100, 1, 0, 3, 0, 2], 4⟩, ⟨[0, 2, 0, 1, 0, 3, 0, 2], 4⟩⟩,
   some ⟨3, 3, 10, .i400, .pc, .unspecified, ⟨[255, 3, 0, 0, 1, 0, 255, 3, 0, 0, 1, 0, 255, 3, 0, 0, 1, 0], 6⟩, ⟨[], 0⟩, ⟨[], 0⟩⟩⟩

theorem holds_of {le : Bool} {d : Nat} {p : Plane} {w h : Nat} (h1 : p.bytes.length = p.stride * h) (h2 : p.stride * h < 2 ^ 63)
    (h3 : w * sampleBytes d ≤ p.stride) (h4 : ((List.range w).all fun x => (List.range h).all fun y => p.sample le d x y < 2 ^ d) = true) : p.Holds le d w h := by
  refine ⟨h1, h2, h3, fun x hx y hy => ?_⟩
  have := List.all_eq_true.mp (List.all_eq_true.mp h4 x (List.mem_range.mpr hx)) y (List.mem_range.mpr hy)
  simpa using this

/-- It meets the hypotheses of `C90_pixels_partial` and `C91_total`. -/
example : sample420.picture.Wf true ∧ sample420.AlphaOk true ∧ sample420.picture.Known := by
  refine ⟨⟨by decide, by decide, by decide, by decide, holds_of rfl (by decide) (by decide) (by decide), fun _ => holds_of rfl (by decide) (by decide) (by decide),
    fun _ => holds_of rfl (by decide) (by decide) (by decide)⟩, ?_, Or.inr (Or.inl rfl)⟩
  intro a h
  obtain rfl := Option.some.inj h
  exact ⟨rfl, holds_of rfl (by decide) (by decide) (by decide)⟩

/-- The first two pixels of it (opaque black, transparent grey), for an aligned and an unaligned plane. -/
example : ((sample420.readImage ⟨true, fun _ => true⟩ (List.replicate 72 7)).toOption.map (List.take 16)) =
      some [0, 0, 0, 0, 0, 0, 192, 255, 64, 85, 64, 85, 64, 85, 0, 0] ∧
    sample420.readImage ⟨true, fun _ => false⟩ (List.replicate 72 7) = sample420.readImage ⟨true, fun _ => true⟩ (List.replicate 72 7) := by decide +kernel

/-- Limited-range white in 8 bits is white, with 4:0:0 planes. -/
example : (Decoder.readImage ⟨false, fun _ => false⟩ ⟨⟨2, 1, 8, .i400, .tv, .st170m, ⟨[235, 16, 0, 0], 4⟩, ⟨[], 0⟩, ⟨[], 0⟩⟩, none⟩ (List.replicate 8 1)) =
    .ok [255, 255, 255, 255, 0, 0, 0, 255] := by decide +kernel

end Avif
end Verif
