import Verif.Model.Pcx
import Verif.Proofs.Buffer
import Verif.Proofs.Loops

/-!
# C100: PCX images

What `read_image` does with the rows the `pcx` crate delivers: RGB rows are put below each other; palette indices are
looked up in the palette that is found after them.
-/

namespace Verif.Pcx
open Verif

theorem total_eq {w h : Nat} (hw : w < 2 ^ 16) (hh : h < 2 ^ 16) : totalBytes w h 3 = w * h * 3 := by
  unfold totalBytes satMul
  have : w * h ≤ 2 ^ 16 * 2 ^ 16 := Nat.mul_le_mul (by omega) (by omega)
  omega

theorem fill_ok {n h : Nat} {row : Nat → Except Unit (List UInt8)} {rows : Nat → List UInt8}
    (hr : ∀ i < h, row i = .ok (rows i) ∧ (rows i).length = n) {off : Nat → Nat} (ho : ∀ i < h, off i = i * n) {buf : List UInt8}
    (hb : buf.length = h * n) :
    ∃ out, forRange h (fun i buf => do fillRow buf (off i) n (← mapErr (row i))) buf = .ok out ∧ out.length = h * n ∧
      ∀ i < h, ∀ k < n, out[i * n + k]? = (rows i)[k]? := by
  obtain ⟨out, h1, h2, h3⟩ := forRange_inv (n := h) (f := fun i buf => do fillRow buf (off i) n (← mapErr (row i))) (s := buf)
    (fun m b => b.length = h * n ∧ ∀ i < m, ∀ k < n, b[i * n + k]? = (rows i)[k]?) ⟨hb, by omega⟩ (by
      intro m hm b hI
      obtain ⟨r1, r2⟩ := hr m hm
      obtain ⟨i1, i2⟩ := hI
      have hle : m * n + n ≤ h * n := by rw [← Nat.succ_mul]; exact Nat.mul_le_mul_right _ hm
      rw [r1, ho m hm]
      simp only [mapErr, ok_bind, fillRow]
      rw [decide_eq_true (by omega)]
      simp only [assertR_true, ok_bind]
      rw [List.take_of_length_le (by omega)]
      refine ⟨_, rfl, by rw [length_overwrite (by omega)]; exact i1, ?_⟩
      intro i hi k hk
      rw [getElem?_overwrite (by omega), r2]
      by_cases him : i = m
      · subst him
        rw [if_neg (by omega), if_pos (by omega)]
        congr 1; omega
      · have : i * n + n ≤ m * n := by rw [← Nat.succ_mul]; exact Nat.mul_le_mul_right _ (by omega)
        rw [if_pos (by omega)]
        exact i2 i (by omega) k hk)
  exact ⟨out, h1, h2, h3⟩

/-- Without a palette: the rows below each other, whatever was in the buffer. -/
theorem C100_rgb (c : Crate) (hw : c.width < 2 ^ 16) (hh : c.height < 2 ^ 16) (hp : c.paletteLength = none)
    (rows : Nat → List UInt8) (hr : ∀ i < c.height, c.row i = .ok (rows i) ∧ (rows i).length = c.width * 3)
    (buf : List UInt8) (hb : buf.length = c.width * c.height * 3) :
    ∃ out, c.readImage buf = .ok out ∧ out.length = buf.length ∧
      ∀ x y k, x < c.width → y < c.height → k < 3 →
        out[(y * c.width + x) * 3 + k]? = (rows y)[x * 3 + k]? := by
  have hlen : c.width * c.height * 3 = c.height * (c.width * 3) := by
    rw [Nat.mul_comm c.width, Nat.mul_assoc]
  obtain ⟨out, h1, h2, h3⟩ := fill_ok hr (off := fun i => i * 3 * c.width)
    (fun i _ => by rw [Nat.mul_assoc, Nat.mul_comm 3]) (buf := buf) (by omega)
  refine ⟨out, ?_, by omega, ?_⟩
  · unfold Crate.readImage
    rw [total_eq hw hh, hb, hp]
    simp only [decide_true, assertR_true, ok_bind]
    exact h1
  · intro x y k hx hy hk
    have := h3 y hy (x * 3 + k) (by omega)
    rw [← this]
    congr 1
    rw [Nat.add_mul, Nat.mul_assoc, Nat.add_assoc]

/-- With a palette: every index is replaced by its three bytes of the palette. -/
theorem C100_palette (c : Crate) (hw : c.width < 2 ^ 16) (hh : c.height < 2 ^ 16) (n : Nat) (hp : c.paletteLength = some n)
    (rows : Nat → List UInt8) (hr : ∀ i < c.height, c.row i = .ok (rows i) ∧ (rows i).length = c.width)
    (palette : List UInt8) (hpal : c.palette = .ok palette) (hpl : palette.length = 3 * n)
    (hin : ∀ i < c.height, ∀ v ∈ rows i, v.toNat < n) (buf : List UInt8) (hb : buf.length = c.width * c.height * 3) :
    ∃ out, c.readImage buf = .ok out ∧ out.length = buf.length ∧
      ∀ x y k v, x < c.width → y < c.height → k < 3 → (rows y)[x]? = some v →
        out[(y * c.width + x) * 3 + k]? = palette[v.toNat * 3 + k]? := by
  obtain ⟨pb, p1, p2, p3⟩ := fill_ok hr (off := fun i => i * c.width) (fun i _ => rfl)
    (buf := List.replicate (c.height * c.width) 0) (by simp)
  have hpf : fillRow (List.replicate (3 * n) 0) 0 (3 * n) palette = .ok palette := by
    unfold fillRow
    rw [decide_eq_true (by simp)]
    simp only [assertR_true, ok_bind]
    rw [List.take_of_length_le (by omega)]
    congr 1
    apply List.ext_getElem?
    intro i
    rw [getElem?_overwrite (by simp; omega)]
    split
    · omega
    · split
      · simp
      · rw [List.getElem?_eq_none (by simp; omega), List.getElem?_eq_none (by omega)]
  have hstep : ∀ i j, i < c.height → j < c.width → ∀ b : List UInt8, b.length = buf.length → ∀ v, (rows i)[j]? = some v →
      ∃ b', putPixel pb palette c.width i j b = .ok b' ∧ b'.length = b.length ∧
        (∀ k < 3, b'[(i * c.width + j) * 3 + k]? = palette[v.toNat * 3 + k]?) ∧
        ∀ m, (m < (i * c.width + j) * 3 ∨ (i * c.width + j) * 3 + 3 ≤ m) → b'[m]? = b[m]? := by
    intro i j hi hj b hbl v hv
    have hv' : pb[i * c.width + j]? = some v := by rw [p3 i hi j hj, hv]
    have hvn := hin i hi v (List.mem_of_getElem? hv)
    have hidx := idx_lt hj hi
    have hoff : i * c.width * 3 + j * 3 = (i * c.width + j) * 3 := (Nat.add_mul _ _ _).symm
    have hce := chunk_end_le (ch := 3) hidx
    unfold putPixel
    rw [hv']
    simp only [unwrapR, ok_bind, palAt, setAt, hoff]
    rw [List.getElem?_eq_getElem (l := palette) (i := v.toNat * 3) (by omega),
      List.getElem?_eq_getElem (l := palette) (i := v.toNat * 3 + 1) (by omega),
      List.getElem?_eq_getElem (l := palette) (i := v.toNat * 3 + 2) (by omega)]
    simp only [ok_bind]
    rw [decide_eq_true (by omega)]
    simp only [assertR_true, ok_bind, List.length_set]
    rw [decide_eq_true (by omega)]
    simp only [assertR_true, ok_bind, List.length_set]
    rw [decide_eq_true (by omega)]
    simp only [assertR_true, ok_bind]
    refine ⟨_, rfl, by simp, ?_, ?_⟩
    · intro k hk
      have : k = 0 ∨ k = 1 ∨ k = 2 := by omega
      rcases this with rfl | rfl | rfl <;>
        simp only [List.getElem?_set, List.length_set, Nat.add_zero] <;> grind
    · intro m hm
      simp only [List.getElem?_set, List.length_set]
      rw [if_neg (by omega), if_neg (by omega), if_neg (by omega)]
  obtain ⟨out, h1, h2, h3⟩ := forRange2_inv (w := c.width) (h := c.height) (s := buf)
    (body := fun j i b => putPixel pb palette c.width i j b)
    (fun i j b => b.length = buf.length ∧ ∀ x y k v, x < c.width → y < c.height → k < 3 → (y < i ∨ y = i ∧ x < j) →
      (rows y)[x]? = some v → b[(y * c.width + x) * 3 + k]? = palette[v.toNat * 3 + k]?)
    ⟨rfl, by omega⟩ (by
      intro i j hi hj b hI
      obtain ⟨i1, i2⟩ := hI
      have hv : (rows i)[j]? = some ((rows i)[j]'(by rw [(hr i hi).2]; exact hj)) := List.getElem?_eq_getElem _
      obtain ⟨b', s1, s2, s3, s4⟩ := hstep i j hi hj b i1 _ hv
      refine ⟨b', s1, by omega, ?_⟩
      intro x y k v hx hy hk hpos hxv
      by_cases hxy : x = j ∧ y = i
      · obtain ⟨rfl, rfl⟩ := hxy
        rw [hv] at hxv
        cases hxv
        exact s3 k hk
      · rw [s4]
        · exact i2 x y k v hx hy hk (by omega) hxv
        · have hne : y * c.width + x ≠ i * c.width + j := by
            intro he
            have := idx_inj hx hj he
            omega
          omega) (by
      intro i hi b hI
      exact ⟨hI.1, fun x y k v hx hy hk hpos hxv => hI.2 x y k v hx hy hk (by omega) hxv⟩)
  refine ⟨out, ?_, h2, ?_⟩
  · unfold Crate.readImage
    rw [total_eq hw hh, hb, hp]
    simp only [decide_true, assertR_true, ok_bind]
    rw [p1]
    simp only [ok_bind, hpal, mapErr, hpf]
    exact h1
  · intro x y k v hx hy hk hv
    exact h3 x y k v hx hy hk (Or.inl hy) hv

/-- A row that the crate cannot read is an I/O error. -/
theorem C100_error (c : Crate) (hw : c.width < 2 ^ 16) (hh : c.height < 2 ^ 16)
    (n : Nat) (hn : n = if c.paletteLength = none then c.width * 3 else c.width)
    (rows : Nat → List UInt8) (i : Nat) (hi : i < c.height) (he : c.row i = .error ())
    (hr : ∀ j < i, c.row j = .ok (rows j) ∧ (rows j).length = n)
    (buf : List UInt8) (hb : buf.length = c.width * c.height * 3) :
    c.readImage buf = .error (.err .io) := by
  have key : ∀ (off : Nat → Nat) (b : List UInt8), (∀ j < c.height, off j = j * n) → b.length = c.height * n →
      ∀ h, i < h → h ≤ c.height → forRange h (fun i buf => do fillRow buf (off i) n (← mapErr (c.row i))) b = .error (.err .io) := by
    intro off b ho hb h hih hhc
    induction h with
    | zero => omega
    | succ h ih =>
      rw [forRange_succ]
      by_cases hlt : i < h
      · rw [ih hlt (by omega)]; rfl
      · have : h = i := by omega
        subst this
        have hok : ∃ out, forRange h (fun i buf => do fillRow buf (off i) n (← mapErr (c.row i))) b = .ok out := by
          obtain ⟨o, h1, h2⟩ := forRange_inv (n := h) (f := fun i buf => do fillRow buf (off i) n (← mapErr (c.row i))) (s := b)
            (fun _ b => b.length = c.height * n) hb (by
              intro m hm b' hl
              obtain ⟨r1, r2⟩ := hr m hm
              have hle : m * n + n ≤ c.height * n := by rw [← Nat.succ_mul]; exact Nat.mul_le_mul_right _ (by omega)
              rw [r1, ho m (by omega)]
              simp only [mapErr, ok_bind, fillRow]
              rw [decide_eq_true (by omega)]
              simp only [assertR_true, ok_bind]
              refine ⟨_, rfl, ?_⟩
              rw [length_overwrite (by rw [List.length_take]; omega)]
              exact hl)
          exact ⟨o, h1⟩
        obtain ⟨o, ho'⟩ := hok
        rw [ho', ok_bind, he]
        rfl
  unfold Crate.readImage
  rw [total_eq hw hh, hb]
  simp only [decide_true, assertR_true, ok_bind]
  cases hp : c.paletteLength with
  | none =>
    rw [hp, if_pos rfl] at hn
    subst hn
    exact key (fun i => i * 3 * c.width) buf (fun j _ => by rw [Nat.mul_assoc, Nat.mul_comm 3])
      (by rw [hb, Nat.mul_comm c.width, Nat.mul_assoc]) c.height hi (Nat.le_refl _)
  | some m =>
    rw [hp, if_neg (by simp)] at hn
    subst hn
    dsimp only
    rw [key (fun i => i * c.width) (List.replicate (c.height * c.width) 0) (fun j _ => rfl) (by simp) c.height hi (Nat.le_refl _)]
    rfl

/-- A palette of 2 colours and a 2 x 2 image: its indices. -/
def exPal : Crate := ⟨2, 2, some 2, 1, 1, fun i => .ok (if i = 0 then [0, 1] else [1, 1]), .ok [1, 2, 3, 10, 20, 30]⟩

example : exPal.readImage (List.replicate 12 9) = .ok [1, 2, 3, 10, 20, 30, 10, 20, 30, 10, 20, 30] := by decide +kernel

example : (⟨1, 2, none, 3, 8, fun i => .ok [UInt8.ofNat i, 5, 6], .error ()⟩ : Crate).readImage (List.replicate 6 9) =
    .ok [0, 5, 6, 1, 5, 6] := by decide +kernel

example : (⟨1, 2, none, 3, 8, fun i => if i = 0 then .ok [4, 5, 6] else .error (), .error ()⟩ : Crate).readImage (List.replicate 6 9) =
    errR .io := by decide +kernel

end Verif.Pcx
