import Verif.Proofs.AvifFile

/-!
# C90, C91: AVIF pictures

`Picture.colour` (Spec/Avif) is the colour of a pixel by ITU-T H.273; a `Picture` is what the AV1 decoder delivers.
-/

namespace Verif
namespace Avif

/-- The colours that the code's matrix stands for. -/
def idealM (mx : Matrix) (l : Layout) (r : Range) (d y u v : Nat) : Fin 3 → ℚ := if l = .i400 then fun _ => luma r d y else mx.colours r d y u v

theorem worker_ok {d : Nat} (hd : d = 8 ∨ d = 10 ∨ d = 12) {l : Layout} {i : Planar} {r : Range} {mx : Matrix} (hm : mx = .identity → l = .i444)
    (hw : 0 < i.width) (hs : i.width * 4 * i.height < 2 ^ 64) (hw64 : i.width * 4 < 2 ^ 64) (y : Samples d i.y i.yStride i.width i.height)
    (u : l ≠ .i400 → Samples d i.u i.uStride (l.chromaSize i.width i.height).1 (l.chromaSize i.width i.height).2)
    (v : l ≠ .i400 → Samples d i.v i.vStride (l.chromaSize i.width i.height).1 (l.chromaSize i.width i.height).2)
    (rgba : List Nat) (hl : rgba.length = i.width * 4 * i.height) :
    ∃ g, worker d l i rgba r mx = .ok (canvas i.width i.height g) ∧ ∀ a < i.width, ∀ b < i.height,
      Shown d (idealM mx l r d (i.y.getD (b * i.yStride + a) 0) (i.u.getD ((l.chromaAt a b).2 * i.uStride + (l.chromaAt a b).1) 0)
        (i.v.getD ((l.chromaAt a b).2 * i.vStride + (l.chromaAt a b).1) 0)) (g a b) := by
  cases l with
  | i400 =>
    obtain ⟨g, h1, h2⟩ := yuv400_ok hd (r := r) (m := mx) (by intro h; simpa using hm h) hw hs hw64 y rgba hl
    exact ⟨g, h1, fun a ha b hb => by simpa [idealM] using h2 a ha b hb⟩
  | i420 =>
    obtain ⟨g, h1, h2⟩ := yuv420_ok hd (r := r) (m := mx) (by intro h; simpa using hm h) hw hs hw64 y (u (by simp)) (v (by simp)) rgba hl
    exact ⟨g, h1, h2⟩
  | i422 =>
    obtain ⟨g, h1, h2⟩ := yuv422_ok hd (r := r) (m := mx) (by intro h; simpa using hm h) hw hs hw64 y (u (by simp)) (v (by simp)) rgba hl
    exact ⟨g, h1, h2⟩
  | i444 =>
    obtain ⟨g, h1, h2⟩ := yuv444_ok hd (r := r) (m := mx) hw hs hw64 y (u (by simp)) (v (by simp)) rgba hl
    exact ⟨g, h1, h2⟩

/-- The pictures whose colours come out right: those without chroma or with one of these matrices. (The decoder accepts BT.470M, SMPTE 170M and
SMPTE 240M as well, see `C90_matrix_false`.) -/
def Picture.Known (p : Picture) : Prop :=
  (p.matrix = .identity ∧ p.layout = .i444) ∨ p.matrix = .bt709 ∨ p.matrix = .unspecified ∨ p.matrix = .bt470bg ∨ p.matrix = .bt2020Ncl ∨
    p.layout = .i400 ∧ (p.matrix = .bt470m ∨ p.matrix = .st170m ∨ p.matrix = .st240m)

theorem known_matrix {p : Picture} (hk : p.Known) : ∃ mx, getMatrix p.matrix = .ok mx ∧ (mx = .identity → p.layout = .i444) ∧
    ∀ y u v, ideal p.matrix p.layout p.range p.depth y u v = some (idealM mx p.layout p.range p.depth y u v) := by
  rcases hk with ⟨h, hl⟩ | h | h | h | h | ⟨hl, h | h | h⟩ <;> rw [h]
  · refine ⟨_, rfl, fun _ => hl, fun y u v => ?_⟩
    rw [hl]
    rfl
  · refine ⟨_, rfl, by simp, fun y u v => ?_⟩
    unfold ideal idealM Matrix.colours
    by_cases hl : p.layout = .i400 <;> simp [hl, Coefficients.weights, Matrix.weights]
  · refine ⟨_, rfl, by simp, fun y u v => ?_⟩
    unfold ideal idealM Matrix.colours
    by_cases hl : p.layout = .i400 <;> simp [hl, Coefficients.weights, Matrix.weights]
  · refine ⟨_, rfl, by simp, fun y u v => ?_⟩
    unfold ideal idealM Matrix.colours
    by_cases hl : p.layout = .i400 <;> simp [hl, Coefficients.weights, Matrix.weights]
  · refine ⟨_, rfl, by simp, fun y u v => ?_⟩
    unfold ideal idealM Matrix.colours
    by_cases hl : p.layout = .i400 <;> simp [hl, Coefficients.weights, Matrix.weights]
  all_goals
    refine ⟨_, rfl, by simp, fun y u v => ?_⟩
    unfold ideal idealM
    rw [if_pos hl, if_pos hl]

/-- The alpha picture, if there is one, is a single plane of the same size and depth. -/
def Decoder.AlphaOk (le : Bool) (d : Decoder) : Prop :=
  ∀ a, d.alpha = some a → a.layout = .i400 ∧ a.y.Holds le d.picture.depth d.picture.width d.picture.height

/-- The alpha sample of a pixel; pictures without an alpha plane are opaque. -/
def Decoder.alphaAt (le : Bool) (d : Decoder) (x y : Nat) : Nat :=
  match d.alpha with
  | none => 2 ^ d.picture.depth - 1
  | some a => a.y.sample le d.picture.depth x y

theorem chromaSize_pos {l : Layout} {w h : Nat} (hw : 0 < w) : 0 < (l.chromaSize w h).1 := by
  cases l <;> simp only [Layout.chromaSize] <;> omega

theorem chromaAt_lt {l : Layout} {w h x y : Nat} (hx : x < w) (hy : y < h) :
    (l.chromaAt x y).1 < (l.chromaSize w h).1 ∧ (l.chromaAt x y).2 < (l.chromaSize w h).2 := by
  cases l <;> simp only [Layout.chromaAt, Layout.chromaSize] <;> omega

theorem chroma_eq {l : Layout} (h : l ≠ .i400) (w k : Nat) : l.chroma w k = .ok (l.chromaSize w k) := by
  cases l <;> first | exact absurd rfl h | rfl

/-- What the workers and the alpha plane make of the planes: pixels, before they are written as bytes. -/
def Painted (le : Bool) (d : Decoder) (mx : Matrix) (g : Nat → Nat → List Nat) : Prop :=
  let p := d.picture
  ∀ x < p.width, ∀ y < p.height, ∃ r gr b, g x y = [r, gr, b, d.alphaAt le x y] ∧ r < 2 ^ p.depth ∧ gr < 2 ^ p.depth ∧ b < 2 ^ p.depth ∧
    d.alphaAt le x y < 2 ^ p.depth ∧
    let c := p.layout.chromaAt x y
    let q := idealM mx p.layout p.range p.depth (p.y.sample le p.depth x y) (p.u.sample le p.depth c.1 c.2) (p.v.sample le p.depth c.1 c.2)
    |(r : ℚ) - (2 ^ p.depth - 1) * limited (q 0)| ≤ tolerance p.depth ∧ |(gr : ℚ) - (2 ^ p.depth - 1) * limited (q 1)| ≤ tolerance p.depth ∧
    |(b : ℚ) - (2 ^ p.depth - 1) * limited (q 2)| ≤ tolerance p.depth

theorem Painted.length {le : Bool} {d : Decoder} {mx : Matrix} {g : Nat → Nat → List Nat} (h : Painted le d mx g) :
    ∀ x < d.picture.width, ∀ y < d.picture.height, (g x y).length = 4 := by
  intro x hx y hy
  obtain ⟨r, gr, b, e, -⟩ := h x hx y hy
  rw [e]
  rfl

theorem two_pow_pos {d : Nat} : 2 ^ d - 1 < 2 ^ d := by
  have : 0 < 2 ^ d := by positivity
  omega

/-- 8-bit pictures. -/
theorem paint8 {m : Machine} {d : Decoder} (wf : d.picture.Wf m.le) (h8 : d.picture.depth = 8) (ha : d.AlphaOk m.le) {mx : Matrix}
    (hm : mx = .identity → d.picture.layout = .i444) (target : List Nat) (hl : target.length = d.picture.width * 4 * d.picture.height) :
    ∃ g, Painted m.le d mx g ∧ ((do
      let out ← worker 8 d.picture.layout ⟨samples8 d.picture.y.bytes, d.picture.y.stride, samples8 d.picture.u.bytes, d.picture.u.stride,
        samples8 d.picture.v.bytes, d.picture.v.stride, d.picture.width, d.picture.height⟩ target d.picture.range mx
      let out ← (match d.alpha with
        | none => .ok out
        | some a =>
          if a.layout ≠ .i400 then errR .decoding
          else do
            let rows ← rowsOf a.y.stride (samples8 a.y.bytes)
            squash d.picture.width rows out)
      .ok (out.map UInt8.ofNat) : R (List UInt8)) = .ok ((canvas d.picture.width d.picture.height g).map UInt8.ofNat)) := by
  obtain ⟨⟨w0, w1⟩, ⟨h0, h1⟩, hwh, -, hy, hu, hv⟩ := wf
  rw [h8] at hy hu hv
  obtain ⟨ys, yg⟩ := bytes_ok hy
  have hsz : d.picture.width * 4 * d.picture.height < 2 ^ 64 := by
    have : d.picture.width * 4 * d.picture.height = 4 * (d.picture.width * d.picture.height) := by ring
    omega
  obtain ⟨g, e, hg⟩ := worker_ok (Or.inl rfl) (l := d.picture.layout) (i := ⟨samples8 d.picture.y.bytes, d.picture.y.stride, samples8 d.picture.u.bytes, d.picture.u.stride,
        samples8 d.picture.v.bytes, d.picture.v.stride, d.picture.width, d.picture.height⟩) (r := d.picture.range) hm w0 hsz (by dsimp only; omega) ys
        (fun h => (bytes_ok (hu h)).1) (fun h => (bytes_ok (hv h)).1) target hl
  have hshow : ∀ x < d.picture.width, ∀ y < d.picture.height, Shown 8 (idealM mx d.picture.layout d.picture.range 8 (d.picture.y.sample m.le 8 x y)
      (d.picture.u.sample m.le 8 (d.picture.layout.chromaAt x y).1 (d.picture.layout.chromaAt x y).2)
      (d.picture.v.sample m.le 8 (d.picture.layout.chromaAt x y).1 (d.picture.layout.chromaAt x y).2)) (g x y) := by
    intro x hx y hy
    have := hg x hx y hy
    dsimp only at this
    rw [yg] at this
    by_cases h4 : d.picture.layout = .i400
    · simpa [idealM, h4] using this
    · rw [(bytes_ok (hu h4)).2, (bytes_ok (hv h4)).2] at this
      exact this
  rw [e, ok_bind]
  dsimp only
  cases hal : d.alpha with
  | none =>
    refine ⟨g, ?_, rfl⟩
    intro x hx y hy
    obtain ⟨r, gr, b, eg, hr, hgr, hb, n1, n2, n3⟩ := hshow x hx y hy
    dsimp only
    simp only [h8, Decoder.alphaAt, hal]
    exact ⟨r, gr, b, eg, hr, hgr, hb, by omega, n1, n2, n3⟩
  | some a =>
    obtain ⟨al, ah⟩ := ha a hal
    rw [h8] at ah
    obtain ⟨as', ag⟩ := bytes_ok ah
    have hlen : ∀ x < d.picture.width, ∀ y < d.picture.height, (g x y).length = 4 := fun x hx y hy => (hshow x hx y hy).length
    simp only [al, ne_eq, not_true_eq_false, if_false]
    rw [rowsOf_ok (lt_of_lt_of_le w0 as'.row), ok_bind, squash_ok w0 as' hlen]
    refine ⟨_, ?_, rfl⟩
    intro x hx y hy
    obtain ⟨r, gr, b, eg, hr, hgr, hb, n1, n2, n3⟩ := hshow x hx y hy
    dsimp only
    simp only [h8, Decoder.alphaAt, hal]
    have hbit := ah.bits x hx y hy
    exact ⟨r, gr, b, by rw [eg, ag]; rfl, hr, hgr, hb, hbit, n1, n2, n3⟩

/-- 10-bit and 12-bit pictures. -/
theorem paint16 {m : Machine} {d : Decoder} (wf : d.picture.Wf m.le) (h8 : d.picture.depth ≠ 8) (ha : d.AlphaOk m.le) {mx : Matrix}
    (hm : mx = .identity → d.picture.layout = .i444) (target : List Nat) (hl : target.length = d.picture.width * 4 * d.picture.height) :
    ∃ g, Painted m.le d mx g ∧
      process16 m d.picture d.alpha target d.picture.range mx = .ok ((canvas d.picture.width d.picture.height g).map (expand d.picture.depth)) := by
  obtain ⟨⟨w0, w1⟩, ⟨h0, h1⟩, hwh, hd, hy, hu, hv⟩ := wf
  obtain ⟨ysl, yst, ye, ys, yg⟩ := transmute_ok m h8 hy w0
  have hsz : d.picture.width * 4 * d.picture.height < 2 ^ 64 := by
    have : d.picture.width * 4 * d.picture.height = 4 * (d.picture.width * d.picture.height) := by ring
    omega
  -- the chroma planes
  have chroma : ∃ usl ust vsl vst, ((if d.picture.layout ≠ .i400 then do
      let (cw, ch) ← d.picture.layout.chroma d.picture.width d.picture.height
      let u ← transmute m d.picture.u cw ch
      let v ← transmute m d.picture.v cw ch
      .ok (u, v)
    else .ok (([], 0), ([], 0)) : R ((List Nat × Nat) × (List Nat × Nat))) = .ok ((usl, ust), (vsl, vst))) ∧
    (d.picture.layout ≠ .i400 → Samples d.picture.depth usl ust (d.picture.layout.chromaSize d.picture.width d.picture.height).1
        (d.picture.layout.chromaSize d.picture.width d.picture.height).2 ∧
      Samples d.picture.depth vsl vst (d.picture.layout.chromaSize d.picture.width d.picture.height).1
        (d.picture.layout.chromaSize d.picture.width d.picture.height).2 ∧
      (∀ x < (d.picture.layout.chromaSize d.picture.width d.picture.height).1, ∀ y < (d.picture.layout.chromaSize d.picture.width d.picture.height).2,
        usl.getD (y * ust + x) 0 = d.picture.u.sample m.le d.picture.depth x y) ∧
      (∀ x < (d.picture.layout.chromaSize d.picture.width d.picture.height).1, ∀ y < (d.picture.layout.chromaSize d.picture.width d.picture.height).2,
        vsl.getD (y * vst + x) 0 = d.picture.v.sample m.le d.picture.depth x y)) := by
    by_cases h4 : d.picture.layout = .i400
    · exact ⟨[], 0, [], 0, by rw [if_neg (by simpa using h4)], fun h => absurd h4 h⟩
    · obtain ⟨usl, ust, ue, us, ug⟩ := transmute_ok m h8 (hu h4) (chromaSize_pos w0)
      obtain ⟨vsl, vst, ve, vs, vg⟩ := transmute_ok m h8 (hv h4) (chromaSize_pos w0)
      refine ⟨usl, ust, vsl, vst, ?_, fun _ => ⟨us, vs, ug, vg⟩⟩
      rw [if_pos h4, chroma_eq h4, ok_bind]
      dsimp only
      rw [ue, ok_bind, ve, ok_bind]
  obtain ⟨usl, ust, vsl, vst, ce, hc⟩ := chroma
  obtain ⟨g, e, hg⟩ := worker_ok hd (l := d.picture.layout) (i := ⟨ysl, yst, usl, ust, vsl, vst, d.picture.width, d.picture.height⟩)
    (r := d.picture.range) hm w0 hsz (by dsimp only; omega) ys (fun h => (hc h).1) (fun h => (hc h).2.1) target hl
  have hshow : ∀ x < d.picture.width, ∀ y < d.picture.height, Shown d.picture.depth (idealM mx d.picture.layout d.picture.range d.picture.depth
      (d.picture.y.sample m.le d.picture.depth x y)
      (d.picture.u.sample m.le d.picture.depth (d.picture.layout.chromaAt x y).1 (d.picture.layout.chromaAt x y).2)
      (d.picture.v.sample m.le d.picture.depth (d.picture.layout.chromaAt x y).1 (d.picture.layout.chromaAt x y).2)) (g x y) := by
    intro x hx y hy
    have := hg x hx y hy
    dsimp only at this
    rw [yg x hx y hy] at this
    by_cases h4 : d.picture.layout = .i400
    · simpa [idealM, h4] using this
    · obtain ⟨c1, c2⟩ := chromaAt_lt (l := d.picture.layout) hx hy
      rw [(hc h4).2.2.1 _ c1 _ c2, (hc h4).2.2.2 _ c1 _ c2] at this
      exact this
  unfold process16
  rw [ye, ok_bind]
  dsimp only
  rw [ce, ok_bind]
  dsimp only
  rw [e, ok_bind]
  cases hal : d.alpha with
  | none =>
    refine ⟨g, ?_, rfl⟩
    intro x hx y hy
    obtain ⟨r, gr, b, eg, hr, hgr, hb, n1, n2, n3⟩ := hshow x hx y hy
    dsimp only
    simp only [Decoder.alphaAt, hal]
    exact ⟨r, gr, b, eg, hr, hgr, hb, two_pow_pos, n1, n2, n3⟩
  | some a =>
    obtain ⟨al, ah⟩ := ha a hal
    obtain ⟨asl, ast, ae, as', ag⟩ := transmute_ok m h8 ah w0
    have hlen : ∀ x < d.picture.width, ∀ y < d.picture.height, (g x y).length = 4 := fun x hx y hy => (hshow x hx y hy).length
    simp only [al, ne_eq, not_true_eq_false, if_false]
    rw [ae, ok_bind]
    dsimp only
    rw [rowsOf_ok (lt_of_lt_of_le w0 as'.row), ok_bind, squash_ok w0 as' hlen]
    refine ⟨_, ?_, rfl⟩
    intro x hx y hy
    obtain ⟨r, gr, b, eg, hr, hgr, hb, n1, n2, n3⟩ := hshow x hx y hy
    dsimp only
    simp only [Decoder.alphaAt, hal]
    have hbit := ah.bits x hx y hy
    exact ⟨r, gr, b, by rw [eg, ag x hx y hy]; rfl, hr, hgr, hb, hbit, n1, n2, n3⟩

/-- How far samples are shifted in the output: 16-bit pixels hold the samples of 10-bit and 12-bit pictures in their high bits. -/
def shift (depth : Nat) : Nat := if depth = 8 then 0 else 16 - depth

theorem painted_mem {le : Bool} {d : Decoder} {mx : Matrix} {g : Nat → Nat → List Nat} (h : Painted le d mx g) :
    ∀ v ∈ canvas d.picture.width d.picture.height g, v < 2 ^ d.picture.depth := by
  intro v hv
  obtain ⟨x, hx, y, hy, hv⟩ := canvas_mem hv
  obtain ⟨r, gr, b, eg, hr, hgr, hb, hal, -⟩ := h x hx y hy
  rw [eg] at hv
  simp only [List.mem_cons, List.not_mem_nil, or_false] at hv
  rcases hv with rfl | rfl | rfl | rfl <;> assumption

theorem totalBytes_eq {p : Picture} (hwh : p.width * p.height < 2 ^ 60) {n : Nat} (hn : n ≤ 8) : totalBytes p.width p.height n = p.width * p.height * n := by
  unfold totalBytes
  have : p.width * p.height * n ≤ p.width * p.height * 8 := Nat.mul_le_mul_left _ hn
  simp [satMul]
  omega

/-- The decoder for every picture with planes of the right size, and every matrix that it accepts. -/
theorem readImage_painted (m : Machine) (d : Decoder) (wf : d.picture.Wf m.le) (ha : d.AlphaOk m.le) {mx : Matrix}
    (hmx : getMatrix d.picture.matrix = .ok mx) (hm : mx = .identity → d.picture.layout = .i444) (buf : List UInt8)
    (hb : buf.length = d.picture.width * d.picture.height * d.colorType.bytesPerPixel) :
    ∃ g out, Painted m.le d mx g ∧ d.readImage m buf = .ok out ∧ out.length = buf.length ∧
      ∀ x < d.picture.width, ∀ y < d.picture.height, ∀ c < 4,
        outSample m.le d.picture.depth d.picture.width out x y c = (g x y).getD c 0 * 2 ^ shift d.picture.depth := by
  have hct : d.colorType.bytesPerPixel = if d.picture.depth = 8 then 4 else 8 := by
    unfold Decoder.colorType
    split <;> rfl
  have htotal : totalBytes d.picture.width d.picture.height d.colorType.bytesPerPixel = d.picture.width * d.picture.height * d.colorType.bytesPerPixel :=
    totalBytes_eq wf.size (by rw [hct]; split <;> omega)
  have hpos : ¬(d.picture.width = 0 ∨ d.picture.height = 0) := by
    have := wf.width.1
    have := wf.height.1
    omega
  have hid : ¬(mx = .identity ∧ d.picture.layout ≠ .i444) := fun h => h.2 (hm h.1)
  unfold Decoder.readImage
  dsimp only
  rw [htotal, assert_ok (by simpa using hb), ok_bind, assert_ok (by simpa using wf.depth), ok_bind, if_neg hpos, hmx, ok_bind, if_neg hid]
  by_cases h8 : d.picture.depth = 8
  · rw [if_pos h8]
    rw [hct, if_pos h8] at hb
    obtain ⟨g, hp, e⟩ := paint8 wf h8 ha hm (samples8 buf) (by simp only [samples8, List.length_map]; rw [hb]; ring)
    have hlen := canvas_length hp.length
    refine ⟨g, _, hp, e, by rw [List.length_map, hlen, hb]; ring, ?_⟩
    intro x hx y hy c hc
    have hget := canvas_getElem? hp.length hx hy hc
    have hmem := painted_mem hp
    simp only [outSample, shift, if_pos h8, Nat.pow_zero, Nat.mul_one]
    rw [List.getD_eq_getElem?_getD, List.getElem?_map, hget, List.getD_eq_getElem?_getD]
    have h4 := hp.length x hx y hy
    rw [List.getElem?_eq_getElem (by omega)]
    have : (g x y)[c] < 256 := by
      have := hmem (g x y)[c] (List.mem_of_getElem? (by rw [hget, List.getElem?_eq_getElem (by omega)]))
      rw [h8] at this
      simpa using this
    simp [Nat.mod_eq_of_lt this]
  · rw [if_neg h8]
    rw [hct, if_neg h8] at hb
    have h1012 : d.picture.depth = 10 ∨ d.picture.depth = 12 := by
      rcases wf.depth with h | h
      · exact absurd h h8
      · exact h
    obtain ⟨g, hp, e⟩ := paint16 wf h8 ha hm (samplesOf m.le 2 buf) (by
      rw [DynamicImage.length_samplesOf m.le (n := d.picture.width * 4 * d.picture.height) (by omega)]
      rw [hb]; ring)
    rw [e, ok_bind]
    have hlen := canvas_length hp.length
    have hmem := painted_mem hp
    refine ⟨g, _, hp, rfl, by rw [DynamicImage.length_bytesOf, List.length_map, hlen, hb]; ring, ?_⟩
    intro x hx y hy c hc
    have hget := canvas_getElem? hp.length hx hy hc
    have hexp : ∀ v ∈ canvas d.picture.width d.picture.height g, expand d.picture.depth v = v * 2 ^ (16 - d.picture.depth) :=
      fun v hv => expand_eq h1012 (hmem v hv)
    have hexl : ∀ v ∈ (canvas d.picture.width d.picture.height g).map (expand d.picture.depth), v < 256 ^ 2 := by
      intro v hv
      obtain ⟨s, hs, rfl⟩ := List.mem_map.mp hv
      rw [hexp s hs]
      have := hmem s hs
      rcases h1012 with h | h <;> rw [h] at this ⊢ <;> omega
    simp only [outSample, shift, if_neg h8]
    rw [DynamicImage.samplesOf_bytesOf m.le 2 (by omega) _ hexl, List.getD_eq_getElem?_getD, List.getElem?_map, hget, List.getD_eq_getElem?_getD]
    have h4 := hp.length x hx y hy
    rw [List.getElem?_eq_getElem (by omega)]
    simp only [Option.map_some, Option.getD_some]
    exact hexp _ (List.mem_of_getElem? (by rw [hget, List.getElem?_eq_getElem (by omega)]))

/-- **C90** (for the matrices of `Picture.Known`) Every picture with planes of the right sizes, of 8, 10 or 12 bits, in any of the four layouts and both ranges, and with one of the matrices
above, decodes: each colour of each pixel is the colour that H.273 gives for its samples, within `1/2 + 2^(depth-8)/5` units of the picture's depth (0.7,
1.3 and 3.7 units for 8, 10 and 12 bits), and alpha is the sample of the alpha plane, or opaque. Every byte of the buffer is replaced. This holds for any
byte order and for planes that are aligned for 16-bit access or not.
Missing: pictures with chroma and the matrices of BT.470M, SMPTE 170M and SMPTE 240M, for which it is false, see `C90_matrix_false`. -/
theorem C90_pixels_partial (m : Machine) (d : Decoder) (wf : d.picture.Wf m.le) (ha : d.AlphaOk m.le) (hk : d.picture.Known) (buf : List UInt8)
    (hb : buf.length = d.picture.width * d.picture.height * d.colorType.bytesPerPixel) :
    ∃ out, d.readImage m buf = .ok out ∧ out.length = buf.length ∧
      ∀ x < d.picture.width, ∀ y < d.picture.height,
        (∃ q, d.picture.colour m.le x y = some q ∧ ∀ c : Fin 3, ∃ v, outSample m.le d.picture.depth d.picture.width out x y c = v * 2 ^ shift d.picture.depth ∧
          v < 2 ^ d.picture.depth ∧ |(v : ℚ) - (2 ^ d.picture.depth - 1) * limited (q c)| ≤ 1 / 2 + 2 ^ (d.picture.depth - 8) / 5) ∧
        outSample m.le d.picture.depth d.picture.width out x y 3 = d.alphaAt m.le x y * 2 ^ shift d.picture.depth := by
  obtain ⟨mx, hmx, hm, hi⟩ := known_matrix hk
  obtain ⟨g, out, hp, e, hl, hout⟩ := readImage_painted m d wf ha hmx hm buf hb
  refine ⟨out, e, hl, fun x hx y hy => ?_⟩
  obtain ⟨r, gr, b, eg, hr, hgr, hb, -, n1, n2, n3⟩ := hp x hx y hy
  have ho := hout x hx y hy
  rw [eg] at ho
  refine ⟨⟨_, hi _ _ _, ?_⟩, ho 3 (by omega)⟩
  intro c
  rcases c with ⟨_ | _ | _ | n, hn⟩
  · exact ⟨r, ho 0 (by omega), hr, n1⟩
  · exact ⟨gr, ho 1 (by omega), hgr, n2⟩
  · exact ⟨b, ho 2 (by omega), hb, n3⟩
  · omega

end Avif
end Verif
