import Verif.Proofs.Affine

/-!
# Rotations and flips (C13, C14)

The geometric meaning of each operation is in `Verif.Spec.Affine`.
-/

namespace Verif
open GenericImageView GenericImage LawfulView LawfulImage

variable {I D P : Type}

/-! ## C13: the writing variants `*_in` -/

section
variable [GenericImageView I P] [LawfulView I P] [GenericImage D P] [LawfulImage D P]

/-- `rotate90_in` fails with `DimensionMismatch` exactly when the destination has the wrong size;
otherwise it stores the transformed image. -/
theorem C13_rotate90_in (img : I) (dst : D) (wi : WF img) (wd : WF dst) :
    (dims dst ≠ (heightOf img, widthOf img) → rotate90In img dst = errR .dimensionMismatch) ∧
    (dims dst = (heightOf img, widthOf img) → ∃ d, rotate90In img dst = .ok d ∧ WF d ∧ IsRot90 img d) := by
  have hd1 : (dims dst).1 = widthOf dst := rfl
  have hd2 : (dims dst).2 = heightOf dst := rfl
  constructor
  · intro hne
    unfold rotate90In
    rw [if_pos]
    rw [Ne, Prod.ext_iff] at hne
    simp only [hd1, hd2] at hne
    omega
  · intro heq
    have he := Prod.ext_iff.1 heq
    simp only [hd1, hd2] at he
    unfold rotate90In
    dsimp only
    rw [if_neg (by omega)]
    obtain ⟨d', g1, g2, g3, g4, g5⟩ := copy_loop (w := widthOf img) (h := heightOf img)
      (body := fun x y d => do
        let p ← getPixel img x y
        putPixel d (← subC (← subC (heightOf img) y) 1) x p) (d0 := dst) (fun x y => getPixel img x y)
      (fun x y => (heightOf img - 1 - y, x)) wd (fun x y hx hy => get_ok wi hx hy)
      (fun x y hx hy => by dsimp only; omega)
      (fun x y x' y' _ _ _ _ h => by simp only [Prod.mk.injEq] at h; omega)
      (fun x y hx hy d _ _ p hp => by
        rw [hp, ok_bind]
        rw [subC_ok (by omega), ok_bind, subC_ok (by omega), ok_bind]; dsimp only
        rw [show heightOf img - y - 1 = heightOf img - 1 - y by omega])
    exact ⟨d', g1, g2, g3.trans heq, g4⟩

/-- `rotate180_in` fails with `DimensionMismatch` exactly when the destination has the wrong size;
otherwise it stores the transformed image. -/
theorem C13_rotate180_in (img : I) (dst : D) (wi : WF img) (wd : WF dst) :
    (dims dst ≠ dims img → rotate180In img dst = errR .dimensionMismatch) ∧
    (dims dst = dims img → ∃ d, rotate180In img dst = .ok d ∧ WF d ∧ IsRot180 img d) := by
  have hd1 : (dims dst).1 = widthOf dst := rfl
  have hd2 : (dims dst).2 = heightOf dst := rfl
  have hi1 : (dims img).1 = widthOf img := rfl
  have hi2 : (dims img).2 = heightOf img := rfl
  constructor
  · intro hne
    unfold rotate180In
    rw [if_pos]
    rw [Ne, Prod.ext_iff] at hne
    simp only [hd1, hd2, hi1, hi2] at hne
    omega
  · intro heq
    have he := Prod.ext_iff.1 heq
    simp only [hd1, hd2, hi1, hi2] at he
    unfold rotate180In
    dsimp only
    rw [if_neg (by omega)]
    obtain ⟨d', g1, g2, g3, g4, g5⟩ := copy_loop (w := widthOf img) (h := heightOf img)
      (body := fun x y d => do
        let p ← getPixel img x y
        putPixel d (← subC (← subC (widthOf img) x) 1) (← subC (← subC (heightOf img) y) 1) p) (d0 := dst) (fun x y => getPixel img x y)
      (fun x y => (widthOf img - 1 - x, heightOf img - 1 - y)) wd (fun x y hx hy => get_ok wi hx hy)
      (fun x y hx hy => by dsimp only; omega)
      (fun x y x' y' _ _ _ _ h => by simp only [Prod.mk.injEq] at h; omega)
      (fun x y hx hy d _ _ p hp => by
        rw [hp, ok_bind]
        rw [subC_ok (by omega), ok_bind, subC_ok (by omega), ok_bind]
        rw [subC_ok (by omega), ok_bind, subC_ok (by omega), ok_bind]; dsimp only
        rw [show widthOf img - x - 1 = widthOf img - 1 - x by omega, show heightOf img - y - 1 = heightOf img - 1 - y by omega])
    exact ⟨d', g1, g2, g3.trans heq, g4⟩

/-- `rotate270_in` fails with `DimensionMismatch` exactly when the destination has the wrong size;
otherwise it stores the transformed image. -/
theorem C13_rotate270_in (img : I) (dst : D) (wi : WF img) (wd : WF dst) :
    (dims dst ≠ (heightOf img, widthOf img) → rotate270In img dst = errR .dimensionMismatch) ∧
    (dims dst = (heightOf img, widthOf img) → ∃ d, rotate270In img dst = .ok d ∧ WF d ∧ IsRot270 img d) := by
  have hd1 : (dims dst).1 = widthOf dst := rfl
  have hd2 : (dims dst).2 = heightOf dst := rfl
  constructor
  · intro hne
    unfold rotate270In
    rw [if_pos]
    rw [Ne, Prod.ext_iff] at hne
    simp only [hd1, hd2] at hne
    omega
  · intro heq
    have he := Prod.ext_iff.1 heq
    simp only [hd1, hd2] at he
    unfold rotate270In
    dsimp only
    rw [if_neg (by omega)]
    obtain ⟨d', g1, g2, g3, g4, g5⟩ := copy_loop (w := widthOf img) (h := heightOf img)
      (body := fun x y d => do
        let p ← getPixel img x y
        putPixel d y (← subC (← subC (widthOf img) x) 1) p) (d0 := dst) (fun x y => getPixel img x y)
      (fun x y => (y, widthOf img - 1 - x)) wd (fun x y hx hy => get_ok wi hx hy)
      (fun x y hx hy => by dsimp only; omega)
      (fun x y x' y' _ _ _ _ h => by simp only [Prod.mk.injEq] at h; omega)
      (fun x y hx hy d _ _ p hp => by
        rw [hp, ok_bind]
        rw [subC_ok (by omega), ok_bind, subC_ok (by omega), ok_bind]; dsimp only
        rw [show widthOf img - x - 1 = widthOf img - 1 - x by omega])
    exact ⟨d', g1, g2, g3.trans heq, g4⟩

/-- `flip_horizontal_in` fails with `DimensionMismatch` exactly when the destination has the wrong size;
otherwise it stores the transformed image. -/
theorem C13_flip_horizontal_in (img : I) (dst : D) (wi : WF img) (wd : WF dst) :
    (dims dst ≠ dims img → flipHorizontalIn img dst = errR .dimensionMismatch) ∧
    (dims dst = dims img → ∃ d, flipHorizontalIn img dst = .ok d ∧ WF d ∧ IsFlipH img d) := by
  have hd1 : (dims dst).1 = widthOf dst := rfl
  have hd2 : (dims dst).2 = heightOf dst := rfl
  have hi1 : (dims img).1 = widthOf img := rfl
  have hi2 : (dims img).2 = heightOf img := rfl
  constructor
  · intro hne
    unfold flipHorizontalIn
    rw [if_pos]
    rw [Ne, Prod.ext_iff] at hne
    simp only [hd1, hd2, hi1, hi2] at hne
    omega
  · intro heq
    have he := Prod.ext_iff.1 heq
    simp only [hd1, hd2, hi1, hi2] at he
    unfold flipHorizontalIn
    dsimp only
    rw [if_neg (by omega)]
    obtain ⟨d', g1, g2, g3, g4, g5⟩ := copy_loop (w := widthOf img) (h := heightOf img)
      (body := fun x y d => do
        let p ← getPixel img x y
        putPixel d (← subC (← subC (widthOf img) x) 1) y p) (d0 := dst) (fun x y => getPixel img x y)
      (fun x y => (widthOf img - 1 - x, y)) wd (fun x y hx hy => get_ok wi hx hy)
      (fun x y hx hy => by dsimp only; omega)
      (fun x y x' y' _ _ _ _ h => by simp only [Prod.mk.injEq] at h; omega)
      (fun x y hx hy d _ _ p hp => by
        rw [hp, ok_bind]
        rw [subC_ok (by omega), ok_bind, subC_ok (by omega), ok_bind]; dsimp only
        rw [show widthOf img - x - 1 = widthOf img - 1 - x by omega])
    exact ⟨d', g1, g2, g3.trans heq, g4⟩

/-- `flip_vertical_in` fails with `DimensionMismatch` exactly when the destination has the wrong size;
otherwise it stores the transformed image. -/
theorem C13_flip_vertical_in (img : I) (dst : D) (wi : WF img) (wd : WF dst) :
    (dims dst ≠ dims img → flipVerticalIn img dst = errR .dimensionMismatch) ∧
    (dims dst = dims img → ∃ d, flipVerticalIn img dst = .ok d ∧ WF d ∧ IsFlipV img d) := by
  have hd1 : (dims dst).1 = widthOf dst := rfl
  have hd2 : (dims dst).2 = heightOf dst := rfl
  have hi1 : (dims img).1 = widthOf img := rfl
  have hi2 : (dims img).2 = heightOf img := rfl
  constructor
  · intro hne
    unfold flipVerticalIn
    rw [if_pos]
    rw [Ne, Prod.ext_iff] at hne
    simp only [hd1, hd2, hi1, hi2] at hne
    omega
  · intro heq
    have he := Prod.ext_iff.1 heq
    simp only [hd1, hd2, hi1, hi2] at he
    unfold flipVerticalIn
    dsimp only
    rw [if_neg (by omega)]
    obtain ⟨d', g1, g2, g3, g4, g5⟩ := copy_loop (w := widthOf img) (h := heightOf img)
      (body := fun x y d => do
        let p ← getPixel img x y
        putPixel d x (← subC (← subC (heightOf img) 1) y) p) (d0 := dst) (fun x y => getPixel img x y)
      (fun x y => (x, heightOf img - 1 - y)) wd (fun x y hx hy => get_ok wi hx hy)
      (fun x y hx hy => by dsimp only; omega)
      (fun x y x' y' _ _ _ _ h => by simp only [Prod.mk.injEq] at h; omega)
      (fun x y hx hy d _ _ p hp => by
        rw [hp, ok_bind]
        rw [subC_ok (by omega), ok_bind, subC_ok (by omega), ok_bind])
    exact ⟨d', g1, g2, g3.trans heq, g4⟩
end

/-! ## C13: the allocating variants, on `ImageBuffer`s -/

section
variable {α : Type} {ch : Nat} [GenericImageView I (Pix α ch)] [LawfulView I (Pix α ch)]

/-- Common part: `let mut out = ImageBuffer::new(w, h); let _ = op_in(img, &mut out); out`. -/
theorem alloc_op (z : α) (w h : Nat) (op : ImageBuffer α ch → R (ImageBuffer α ch))
    (Rel : ImageBuffer α ch → Prop) (hc : ch < 256) (hw : w < 2 ^ 32) (hh : h < 2 ^ 32)
    (hs : w * h * ch < 2 ^ 64)
    (hop : ∀ out : ImageBuffer α ch, out.Inv → dims out = (w, h) →
      ∃ d, op out = .ok d ∧ d.Inv ∧ dims d = (w, h) ∧ Rel d)
    (hlen : ∀ out d, op out = .ok d → d.data.length = out.data.length) :
    ∃ d, (ImageBuffer.new ch z w h >>= fun out => ignoreErr out (op out)) = .ok d ∧ d.Inv ∧
      d.data.length = d.width * d.height * ch ∧ Rel d := by
  rw [ImageBuffer.new_ok hc hw hs, ok_bind]
  obtain ⟨d, h1, h2, h3, h4⟩ := hop ⟨w, h, List.replicate (w * h * ch) z⟩ (ImageBuffer.new_inv hw hh hs) rfl
  refine ⟨d, by rw [h1]; rfl, h2, ?_, h4⟩
  have h5 := hlen _ _ h1
  rw [List.length_replicate] at h5
  have e1 : d.width = w := congrArg Prod.fst h3
  have e2 : d.height = h := congrArg Prod.snd h3
  rw [e1, e2]; exact h5

omit [LawfulView I (Pix α ch)] in
theorem rotate90In_length {img : I} {out d : ImageBuffer α ch} (h : rotate90In img out = .ok d) :
    d.data.length = out.data.length := by
  unfold rotate90In at h
  dsimp only at h
  split at h
  · cases h
  · refine forRange_pres (fun e => e.data.length = out.data.length) (fun y s s' hs h' => ?_) rfl h
    refine forRange_pres (fun e => e.data.length = out.data.length) (fun x s s' hs h' => ?_) hs h'
    simp only [bind_eq_ok] at h'
    obtain ⟨_, _, h'⟩ := h'
    obtain ⟨_, _, h'⟩ := h'
    obtain ⟨_, _, h'⟩ := h'
    exact (ImageBuffer.putPixel_length h').trans hs

/-- `rotate90` returns the transformed image, in a buffer of exactly the needed size. -/
theorem C13_rotate90 (z : α) (img : I) (wi : WF img) (hc : ch < 256)
    (hs : widthOf img * heightOf img * ch < 2 ^ 64) :
    ∃ d : ImageBuffer α ch, rotate90 z img = .ok d ∧ d.Inv ∧
      d.data.length = d.width * d.height * ch ∧ IsRot90 img d :=
  alloc_op z (heightOf img) (widthOf img) (rotate90In img) (IsRot90 img) hc (height_lt wi) (width_lt wi) (by rw [Nat.mul_comm (heightOf img)]; exact hs)
    (fun out ho hd => by
      obtain ⟨d, h1, h2, h3⟩ := (C13_rotate90_in img out wi ho).2 hd
      exact ⟨d, h1, h2, h3.1, h3⟩)
    (fun out d h => rotate90In_length h)

omit [LawfulView I (Pix α ch)] in
theorem rotate180In_length {img : I} {out d : ImageBuffer α ch} (h : rotate180In img out = .ok d) :
    d.data.length = out.data.length := by
  unfold rotate180In at h
  dsimp only at h
  split at h
  · cases h
  · refine forRange_pres (fun e => e.data.length = out.data.length) (fun y s s' hs h' => ?_) rfl h
    refine forRange_pres (fun e => e.data.length = out.data.length) (fun x s s' hs h' => ?_) hs h'
    simp only [bind_eq_ok] at h'
    obtain ⟨_, _, h'⟩ := h'
    obtain ⟨_, _, h'⟩ := h'
    obtain ⟨_, _, h'⟩ := h'
    obtain ⟨_, _, h'⟩ := h'
    obtain ⟨_, _, h'⟩ := h'
    exact (ImageBuffer.putPixel_length h').trans hs

/-- `rotate180` returns the transformed image, in a buffer of exactly the needed size. -/
theorem C13_rotate180 (z : α) (img : I) (wi : WF img) (hc : ch < 256)
    (hs : widthOf img * heightOf img * ch < 2 ^ 64) :
    ∃ d : ImageBuffer α ch, rotate180 z img = .ok d ∧ d.Inv ∧
      d.data.length = d.width * d.height * ch ∧ IsRot180 img d :=
  alloc_op z (widthOf img) (heightOf img) (rotate180In img) (IsRot180 img) hc (width_lt wi) (height_lt wi) (hs)
    (fun out ho hd => by
      obtain ⟨d, h1, h2, h3⟩ := (C13_rotate180_in img out wi ho).2 hd
      exact ⟨d, h1, h2, h3.1, h3⟩)
    (fun out d h => rotate180In_length h)

omit [LawfulView I (Pix α ch)] in
theorem rotate270In_length {img : I} {out d : ImageBuffer α ch} (h : rotate270In img out = .ok d) :
    d.data.length = out.data.length := by
  unfold rotate270In at h
  dsimp only at h
  split at h
  · cases h
  · refine forRange_pres (fun e => e.data.length = out.data.length) (fun y s s' hs h' => ?_) rfl h
    refine forRange_pres (fun e => e.data.length = out.data.length) (fun x s s' hs h' => ?_) hs h'
    simp only [bind_eq_ok] at h'
    obtain ⟨_, _, h'⟩ := h'
    obtain ⟨_, _, h'⟩ := h'
    obtain ⟨_, _, h'⟩ := h'
    exact (ImageBuffer.putPixel_length h').trans hs

/-- `rotate270` returns the transformed image, in a buffer of exactly the needed size. -/
theorem C13_rotate270 (z : α) (img : I) (wi : WF img) (hc : ch < 256)
    (hs : widthOf img * heightOf img * ch < 2 ^ 64) :
    ∃ d : ImageBuffer α ch, rotate270 z img = .ok d ∧ d.Inv ∧
      d.data.length = d.width * d.height * ch ∧ IsRot270 img d :=
  alloc_op z (heightOf img) (widthOf img) (rotate270In img) (IsRot270 img) hc (height_lt wi) (width_lt wi) (by rw [Nat.mul_comm (heightOf img)]; exact hs)
    (fun out ho hd => by
      obtain ⟨d, h1, h2, h3⟩ := (C13_rotate270_in img out wi ho).2 hd
      exact ⟨d, h1, h2, h3.1, h3⟩)
    (fun out d h => rotate270In_length h)

omit [LawfulView I (Pix α ch)] in
theorem flipHorizontalIn_length {img : I} {out d : ImageBuffer α ch} (h : flipHorizontalIn img out = .ok d) :
    d.data.length = out.data.length := by
  unfold flipHorizontalIn at h
  dsimp only at h
  split at h
  · cases h
  · refine forRange_pres (fun e => e.data.length = out.data.length) (fun y s s' hs h' => ?_) rfl h
    refine forRange_pres (fun e => e.data.length = out.data.length) (fun x s s' hs h' => ?_) hs h'
    simp only [bind_eq_ok] at h'
    obtain ⟨_, _, h'⟩ := h'
    obtain ⟨_, _, h'⟩ := h'
    obtain ⟨_, _, h'⟩ := h'
    exact (ImageBuffer.putPixel_length h').trans hs

/-- `flip_horizontal` returns the transformed image, in a buffer of exactly the needed size. -/
theorem C13_flip_horizontal (z : α) (img : I) (wi : WF img) (hc : ch < 256)
    (hs : widthOf img * heightOf img * ch < 2 ^ 64) :
    ∃ d : ImageBuffer α ch, flipHorizontal z img = .ok d ∧ d.Inv ∧
      d.data.length = d.width * d.height * ch ∧ IsFlipH img d :=
  alloc_op z (widthOf img) (heightOf img) (flipHorizontalIn img) (IsFlipH img) hc (width_lt wi) (height_lt wi) (hs)
    (fun out ho hd => by
      obtain ⟨d, h1, h2, h3⟩ := (C13_flip_horizontal_in img out wi ho).2 hd
      exact ⟨d, h1, h2, h3.1, h3⟩)
    (fun out d h => flipHorizontalIn_length h)

omit [LawfulView I (Pix α ch)] in
theorem flipVerticalIn_length {img : I} {out d : ImageBuffer α ch} (h : flipVerticalIn img out = .ok d) :
    d.data.length = out.data.length := by
  unfold flipVerticalIn at h
  dsimp only at h
  split at h
  · cases h
  · refine forRange_pres (fun e => e.data.length = out.data.length) (fun y s s' hs h' => ?_) rfl h
    refine forRange_pres (fun e => e.data.length = out.data.length) (fun x s s' hs h' => ?_) hs h'
    simp only [bind_eq_ok] at h'
    obtain ⟨_, _, h'⟩ := h'
    obtain ⟨_, _, h'⟩ := h'
    obtain ⟨_, _, h'⟩ := h'
    exact (ImageBuffer.putPixel_length h').trans hs

/-- `flip_vertical` returns the transformed image, in a buffer of exactly the needed size. -/
theorem C13_flip_vertical (z : α) (img : I) (wi : WF img) (hc : ch < 256)
    (hs : widthOf img * heightOf img * ch < 2 ^ 64) :
    ∃ d : ImageBuffer α ch, flipVertical z img = .ok d ∧ d.Inv ∧
      d.data.length = d.width * d.height * ch ∧ IsFlipV img d :=
  alloc_op z (widthOf img) (heightOf img) (flipVerticalIn img) (IsFlipV img) hc (width_lt wi) (height_lt wi) (hs)
    (fun out ho hd => by
      obtain ⟨d, h1, h2, h3⟩ := (C13_flip_vertical_in img out wi ho).2 hd
      exact ⟨d, h1, h2, h3.1, h3⟩)
    (fun out d h => flipVerticalIn_length h)
end

/-! ## C13: group laws

Stated as equalities of the returned buffers, including the raw container. -/

/-- A buffer that fills its container exactly, as `new`, `from_fn`, all operations here etc. produce. -/
def ImageBuffer.Exact {α : Type} {ch : Nat} (b : ImageBuffer α ch) : Prop :=
  b.Inv ∧ b.data.length = b.width * b.height * ch

theorem ImageBuffer.Exact.size {α : Type} {ch : Nat} {b : ImageBuffer α ch} (h : b.Exact) :
    widthOf b * heightOf b * ch < 2 ^ 64 := by
  have := h.2; have := h.1.len64
  show b.width * b.height * ch < 2 ^ 64
  omega

section
variable {α : Type} {ch : Nat} (z : α) (img : ImageBuffer α ch) (hi : img.Exact) (hc : ch < 256)
include hi hc

/-- Two quarter turns are half a turn. -/
theorem C13_rotate90_twice : (rotate90 z img >>= rotate90 z) = rotate180 z img := by
  obtain ⟨a, ha, ia, la, ra⟩ := C13_rotate90 z img hi.1 hc (hi.size)
  obtain ⟨b, hb, ib, lb, rb⟩ := C13_rotate90 z a ia hc (ImageBuffer.Exact.size ⟨ia, la⟩)
  obtain ⟨c, hcc, ic, lc, rc⟩ := C13_rotate180 z img hi.1 hc hi.size
  rw [ha, ok_bind, hb, hcc]
  obtain ⟨wa, va, pa⟩ := ra.pull
  obtain ⟨wb, vb, pb⟩ := rb.pull
  obtain ⟨wc, vc, pc⟩ := rc.pull
  congr 1
  refine ImageBuffer.ext_exact ic ib lc lb ⟨Prod.ext ?_ ?_, fun x y hx hy => ?_⟩
  · show widthOf b = widthOf c; omega
  · show heightOf b = heightOf c; omega
  · rw [pb _ _ (by omega) (by omega), pa _ _ (by omega) (by omega), pc _ _ (by omega) (by omega)]
    congr 1 <;> omega

/-- Three quarter turns clockwise are one counter-clockwise. -/
theorem C13_rotate90_then_180 : (rotate90 z img >>= rotate180 z) = rotate270 z img := by
  obtain ⟨a, ha, ia, la, ra⟩ := C13_rotate90 z img hi.1 hc (hi.size)
  obtain ⟨b, hb, ib, lb, rb⟩ := C13_rotate180 z a ia hc (ImageBuffer.Exact.size ⟨ia, la⟩)
  obtain ⟨c, hcc, ic, lc, rc⟩ := C13_rotate270 z img hi.1 hc hi.size
  rw [ha, ok_bind, hb, hcc]
  obtain ⟨wa, va, pa⟩ := ra.pull
  obtain ⟨wb, vb, pb⟩ := rb.pull
  obtain ⟨wc, vc, pc⟩ := rc.pull
  congr 1
  refine ImageBuffer.ext_exact ic ib lc lb ⟨Prod.ext ?_ ?_, fun x y hx hy => ?_⟩
  · show widthOf b = widthOf c; omega
  · show heightOf b = heightOf c; omega
  · rw [pb _ _ (by omega) (by omega), pa _ _ (by omega) (by omega), pc _ _ (by omega) (by omega)]
    congr 1 <;> omega

/-- As before, in the other order. -/
theorem C13_rotate180_then_90 : (rotate180 z img >>= rotate90 z) = rotate270 z img := by
  obtain ⟨a, ha, ia, la, ra⟩ := C13_rotate180 z img hi.1 hc (hi.size)
  obtain ⟨b, hb, ib, lb, rb⟩ := C13_rotate90 z a ia hc (ImageBuffer.Exact.size ⟨ia, la⟩)
  obtain ⟨c, hcc, ic, lc, rc⟩ := C13_rotate270 z img hi.1 hc hi.size
  rw [ha, ok_bind, hb, hcc]
  obtain ⟨wa, va, pa⟩ := ra.pull
  obtain ⟨wb, vb, pb⟩ := rb.pull
  obtain ⟨wc, vc, pc⟩ := rc.pull
  congr 1
  refine ImageBuffer.ext_exact ic ib lc lb ⟨Prod.ext ?_ ?_, fun x y hx hy => ?_⟩
  · show widthOf b = widthOf c; omega
  · show heightOf b = heightOf c; omega
  · rw [pb _ _ (by omega) (by omega), pa _ _ (by omega) (by omega), pc _ _ (by omega) (by omega)]
    congr 1 <;> omega

/-- `rotate270` undoes `rotate90`. -/
theorem C13_rotate90_then_270 : (rotate90 z img >>= rotate270 z) = .ok img := by
  obtain ⟨a, ha, ia, la, ra⟩ := C13_rotate90 z img hi.1 hc (hi.size)
  obtain ⟨b, hb, ib, lb, rb⟩ := C13_rotate270 z a ia hc (ImageBuffer.Exact.size ⟨ia, la⟩)
  rw [ha, ok_bind, hb]
  obtain ⟨wa, va, pa⟩ := ra.pull
  obtain ⟨wb, vb, pb⟩ := rb.pull
  congr 1
  refine ImageBuffer.ext_exact hi.1 ib hi.2 lb ⟨Prod.ext ?_ ?_, fun x y hx hy => ?_⟩
  · show widthOf b = widthOf img; omega
  · show heightOf b = heightOf img; omega
  · rw [pb _ _ (by omega) (by omega), pa _ _ (by omega) (by omega)]
    congr 1 <;> omega

/-- `rotate90` undoes `rotate270`. -/
theorem C13_rotate270_then_90 : (rotate270 z img >>= rotate90 z) = .ok img := by
  obtain ⟨a, ha, ia, la, ra⟩ := C13_rotate270 z img hi.1 hc (hi.size)
  obtain ⟨b, hb, ib, lb, rb⟩ := C13_rotate90 z a ia hc (ImageBuffer.Exact.size ⟨ia, la⟩)
  rw [ha, ok_bind, hb]
  obtain ⟨wa, va, pa⟩ := ra.pull
  obtain ⟨wb, vb, pb⟩ := rb.pull
  congr 1
  refine ImageBuffer.ext_exact hi.1 ib hi.2 lb ⟨Prod.ext ?_ ?_, fun x y hx hy => ?_⟩
  · show widthOf b = widthOf img; omega
  · show heightOf b = heightOf img; omega
  · rw [pb _ _ (by omega) (by omega), pa _ _ (by omega) (by omega)]
    congr 1 <;> omega

/-- `rotate180` is an involution. -/
theorem C13_rotate180_twice : (rotate180 z img >>= rotate180 z) = .ok img := by
  obtain ⟨a, ha, ia, la, ra⟩ := C13_rotate180 z img hi.1 hc (hi.size)
  obtain ⟨b, hb, ib, lb, rb⟩ := C13_rotate180 z a ia hc (ImageBuffer.Exact.size ⟨ia, la⟩)
  rw [ha, ok_bind, hb]
  obtain ⟨wa, va, pa⟩ := ra.pull
  obtain ⟨wb, vb, pb⟩ := rb.pull
  congr 1
  refine ImageBuffer.ext_exact hi.1 ib hi.2 lb ⟨Prod.ext ?_ ?_, fun x y hx hy => ?_⟩
  · show widthOf b = widthOf img; omega
  · show heightOf b = heightOf img; omega
  · rw [pb _ _ (by omega) (by omega), pa _ _ (by omega) (by omega)]
    congr 1 <;> omega

/-- Four quarter turns are the identity. -/
theorem C13_rotate90_four_times : (((rotate90 z img >>= rotate90 z) >>= rotate90 z) >>= rotate90 z) = .ok img := by
  obtain ⟨a, ha, ia, la, ra⟩ := C13_rotate90 z img hi.1 hc (hi.size)
  obtain ⟨b, hb, ib, lb, rb⟩ := C13_rotate90 z a ia hc (ImageBuffer.Exact.size ⟨ia, la⟩)
  obtain ⟨e, he, ie, le, re⟩ := C13_rotate90 z b ib hc (ImageBuffer.Exact.size ⟨ib, lb⟩)
  obtain ⟨g, hg, ig, lg, rg⟩ := C13_rotate90 z e ie hc (ImageBuffer.Exact.size ⟨ie, le⟩)
  rw [ha, ok_bind, hb, ok_bind, he, ok_bind, hg]
  obtain ⟨wa, va, pa⟩ := ra.pull
  obtain ⟨wb, vb, pb⟩ := rb.pull
  obtain ⟨we, ve, pe⟩ := re.pull
  obtain ⟨wg, vg, pg⟩ := rg.pull
  congr 1
  refine ImageBuffer.ext_exact hi.1 ig hi.2 lg ⟨Prod.ext ?_ ?_, fun x y hx hy => ?_⟩
  · show widthOf g = widthOf img; omega
  · show heightOf g = heightOf img; omega
  · rw [pg _ _ (by omega) (by omega), pe _ _ (by omega) (by omega), pb _ _ (by omega) (by omega), pa _ _ (by omega) (by omega)]
    congr 1 <;> omega

/-- `flip_horizontal` is an involution. -/
theorem C13_flip_horizontal_twice : (flipHorizontal z img >>= flipHorizontal z) = .ok img := by
  obtain ⟨a, ha, ia, la, ra⟩ := C13_flip_horizontal z img hi.1 hc (hi.size)
  obtain ⟨b, hb, ib, lb, rb⟩ := C13_flip_horizontal z a ia hc (ImageBuffer.Exact.size ⟨ia, la⟩)
  rw [ha, ok_bind, hb]
  obtain ⟨wa, va, pa⟩ := ra.pull
  obtain ⟨wb, vb, pb⟩ := rb.pull
  congr 1
  refine ImageBuffer.ext_exact hi.1 ib hi.2 lb ⟨Prod.ext ?_ ?_, fun x y hx hy => ?_⟩
  · show widthOf b = widthOf img; omega
  · show heightOf b = heightOf img; omega
  · rw [pb _ _ (by omega) (by omega), pa _ _ (by omega) (by omega)]
    congr 1 <;> omega

/-- `flip_vertical` is an involution. -/
theorem C13_flip_vertical_twice : (flipVertical z img >>= flipVertical z) = .ok img := by
  obtain ⟨a, ha, ia, la, ra⟩ := C13_flip_vertical z img hi.1 hc (hi.size)
  obtain ⟨b, hb, ib, lb, rb⟩ := C13_flip_vertical z a ia hc (ImageBuffer.Exact.size ⟨ia, la⟩)
  rw [ha, ok_bind, hb]
  obtain ⟨wa, va, pa⟩ := ra.pull
  obtain ⟨wb, vb, pb⟩ := rb.pull
  congr 1
  refine ImageBuffer.ext_exact hi.1 ib hi.2 lb ⟨Prod.ext ?_ ?_, fun x y hx hy => ?_⟩
  · show widthOf b = widthOf img; omega
  · show heightOf b = heightOf img; omega
  · rw [pb _ _ (by omega) (by omega), pa _ _ (by omega) (by omega)]
    congr 1 <;> omega

/-- Both flips are half a turn. -/
theorem C13_flip_v_then_h : (flipVertical z img >>= flipHorizontal z) = rotate180 z img := by
  obtain ⟨a, ha, ia, la, ra⟩ := C13_flip_vertical z img hi.1 hc (hi.size)
  obtain ⟨b, hb, ib, lb, rb⟩ := C13_flip_horizontal z a ia hc (ImageBuffer.Exact.size ⟨ia, la⟩)
  obtain ⟨c, hcc, ic, lc, rc⟩ := C13_rotate180 z img hi.1 hc hi.size
  rw [ha, ok_bind, hb, hcc]
  obtain ⟨wa, va, pa⟩ := ra.pull
  obtain ⟨wb, vb, pb⟩ := rb.pull
  obtain ⟨wc, vc, pc⟩ := rc.pull
  congr 1
  refine ImageBuffer.ext_exact ic ib lc lb ⟨Prod.ext ?_ ?_, fun x y hx hy => ?_⟩
  · show widthOf b = widthOf c; omega
  · show heightOf b = heightOf c; omega
  · rw [pb _ _ (by omega) (by omega), pa _ _ (by omega) (by omega), pc _ _ (by omega) (by omega)]
    congr 1 <;> omega

/-- The flips commute. -/
theorem C13_flip_h_then_v : (flipHorizontal z img >>= flipVertical z) = rotate180 z img := by
  obtain ⟨a, ha, ia, la, ra⟩ := C13_flip_horizontal z img hi.1 hc (hi.size)
  obtain ⟨b, hb, ib, lb, rb⟩ := C13_flip_vertical z a ia hc (ImageBuffer.Exact.size ⟨ia, la⟩)
  obtain ⟨c, hcc, ic, lc, rc⟩ := C13_rotate180 z img hi.1 hc hi.size
  rw [ha, ok_bind, hb, hcc]
  obtain ⟨wa, va, pa⟩ := ra.pull
  obtain ⟨wb, vb, pb⟩ := rb.pull
  obtain ⟨wc, vc, pc⟩ := rc.pull
  congr 1
  refine ImageBuffer.ext_exact ic ib lc lb ⟨Prod.ext ?_ ?_, fun x y hx hy => ?_⟩
  · show widthOf b = widthOf c; omega
  · show heightOf b = heightOf c; omega
  · rw [pb _ _ (by omega) (by omega), pa _ _ (by omega) (by omega), pc _ _ (by omega) (by omega)]
    congr 1 <;> omega

/-- The dihedral relation between rotation and reflection. -/
theorem C13_flip_conjugates_rotation : ((rotate90 z img >>= flipHorizontal z) >>= rotate90 z) = flipHorizontal z img := by
  obtain ⟨a, ha, ia, la, ra⟩ := C13_rotate90 z img hi.1 hc (hi.size)
  obtain ⟨b, hb, ib, lb, rb⟩ := C13_flip_horizontal z a ia hc (ImageBuffer.Exact.size ⟨ia, la⟩)
  obtain ⟨e, he, ie, le, re⟩ := C13_rotate90 z b ib hc (ImageBuffer.Exact.size ⟨ib, lb⟩)
  obtain ⟨c, hcc, ic, lc, rc⟩ := C13_flip_horizontal z img hi.1 hc hi.size
  rw [ha, ok_bind, hb, ok_bind, he, hcc]
  obtain ⟨wa, va, pa⟩ := ra.pull
  obtain ⟨wb, vb, pb⟩ := rb.pull
  obtain ⟨we, ve, pe⟩ := re.pull
  obtain ⟨wc, vc, pc⟩ := rc.pull
  congr 1
  refine ImageBuffer.ext_exact ic ie lc le ⟨Prod.ext ?_ ?_, fun x y hx hy => ?_⟩
  · show widthOf e = widthOf c; omega
  · show heightOf e = heightOf c; omega
  · rw [pe _ _ (by omega) (by omega), pb _ _ (by omega) (by omega), pa _ _ (by omega) (by omega), pc _ _ (by omega) (by omega)]
    congr 1 <;> omega
end

/-! ## C14: the in-place variants -/

section
variable [GenericImage D P] [LawfulImage D P]

/-- `flip_horizontal_in_place` mirrors the image, for even and odd widths. -/
theorem C14_flip_horizontal_in_place_spec (img : D) (wi : WF img) :
    ∃ d, flipHorizontalInPlace img = .ok d ∧ WF d ∧ IsFlipH img d := by
  obtain ⟨d, g1, g2, g3, g4, g5⟩ := swap_loop (w := widthOf img / 2) (h := heightOf img) (d0 := img)
    (body := fun x y d => do
      let x2 ← subC (← subC (widthOf img) x) 1
      let p2 ← getPixel d x2 y
      let p ← getPixel d x y
      let d ← putPixel d x2 y p
      putPixel d x y p2)
    (fun x y => (widthOf img - x - 1, y)) (fun x y => (x, y)) wi
    (fun x y _ _ => by dsimp only; omega) (fun x y _ _ => by dsimp only; omega)
    (fun x y x' y' _ _ _ _ h => by simp only [Prod.mk.injEq] at h; omega)
    (fun x y x' y' _ _ _ _ h => by simp only [Prod.mk.injEq] at h; omega)
    (fun x y x' y' _ _ _ _ h => by simp only [Prod.mk.injEq] at h; omega)
    (by
      intro x y hx hy d hw hd p q hp hq
      have e1 := widthOf_eq hd
      have e2 := heightOf_eq hd
      simp only at hp hq
      obtain ⟨d', f1, f2, f3, f4, f5, f6⟩ := put_put hw (x := widthOf img - x - 1) (y := y) (x2 := x)
        (y2 := y) (by omega) (by omega) (by omega) (by omega) (by omega) q p
      refine ⟨d', ?_, f2, f3, f4, f5, fun a b ha hb h1 h2 => f6 a b ha hb ?_ ?_⟩
      · rw [subC_ok (by omega), ok_bind, subC_ok (by omega), ok_bind, hp, ok_bind, hq, ok_bind]
        exact f1
      · rintro ⟨rfl, rfl⟩; exact h1 rfl
      · rintro ⟨rfl, rfl⟩; exact h2 rfl)
  refine ⟨d, g1, g2, IsFlipH.of_pull (widthOf_eq g3) (heightOf_eq g3) (fun a b ha hb => ?_)⟩
  by_cases h1 : a < widthOf img / 2
  · have := (g4 a b h1 hb).2
    dsimp only at this
    rw [this]; congr 1; omega
  · by_cases h2 : widthOf img - 1 - a < widthOf img / 2
    · have := (g4 (widthOf img - 1 - a) b h2 hb).1
      dsimp only at this
      rw [← this]; congr 1; omega
    · rw [g5 a b ha hb (fun x y hx hy => by simp only [ne_eq, Prod.mk.injEq]; omega)]
      congr 1; omega

/-- `flip_vertical_in_place` mirrors the image, for even and odd heights. -/
theorem C14_flip_vertical_in_place_spec (img : D) (wi : WF img) :
    ∃ d, flipVerticalInPlace img = .ok d ∧ WF d ∧ IsFlipV img d := by
  obtain ⟨d, g1, g2, g3, g4, g5⟩ := swap_loop (w := widthOf img) (h := heightOf img / 2) (d0 := img)
    (body := fun x y d => do
      let y2 ← subC (← subC (heightOf img) y) 1
      let p2 ← getPixel d x y2
      let p ← getPixel d x y
      let d ← putPixel d x y2 p
      putPixel d x y p2)
    (fun x y => (x, heightOf img - y - 1)) (fun x y => (x, y)) wi
    (fun x y _ _ => by dsimp only; omega) (fun x y _ _ => by dsimp only; omega)
    (fun x y x' y' _ _ _ _ h => by simp only [Prod.mk.injEq] at h; omega)
    (fun x y x' y' _ _ _ _ h => by simp only [Prod.mk.injEq] at h; omega)
    (fun x y x' y' _ _ _ _ h => by simp only [Prod.mk.injEq] at h; omega)
    (by
      intro x y hx hy d hw hd p q hp hq
      have e1 := widthOf_eq hd
      have e2 := heightOf_eq hd
      simp only at hp hq
      obtain ⟨d', f1, f2, f3, f4, f5, f6⟩ := put_put hw (x := x) (y := heightOf img - y - 1) (x2 := x)
        (y2 := y) (by omega) (by omega) (by omega) (by omega) (by omega) q p
      refine ⟨d', ?_, f2, f3, f4, f5, fun a b ha hb h1 h2 => f6 a b ha hb ?_ ?_⟩
      · rw [subC_ok (by omega), ok_bind, subC_ok (by omega), ok_bind, hp, ok_bind, hq, ok_bind]
        exact f1
      · rintro ⟨rfl, rfl⟩; exact h1 rfl
      · rintro ⟨rfl, rfl⟩; exact h2 rfl)
  refine ⟨d, g1, g2, IsFlipV.of_pull (widthOf_eq g3) (heightOf_eq g3) (fun a b ha hb => ?_)⟩
  by_cases h1 : b < heightOf img / 2
  · have := (g4 a b ha h1).2
    dsimp only at this
    rw [this]; congr 1; omega
  · by_cases h2 : heightOf img - 1 - b < heightOf img / 2
    · have := (g4 a (heightOf img - 1 - b) ha h2).1
      dsimp only at this
      rw [← this]; congr 1; omega
    · rw [g5 a b ha hb (fun x y hx hy => by simp only [ne_eq, Prod.mk.injEq]; omega)]
      congr 1; omega

/-- `rotate180_in_place` turns the image, for even and odd dimensions. -/
theorem C14_rotate180_in_place_spec (img : D) (wi : WF img) :
    ∃ d, rotate180InPlace img = .ok d ∧ WF d ∧ IsRot180 img d := by
  obtain ⟨d, g1, g2, g3, g4, g5⟩ := swap_loop (w := widthOf img) (h := heightOf img / 2) (d0 := img)
    (body := fun x y d => do
      let p ← getPixel d x y
      let x2 ← subC (← subC (widthOf img) x) 1
      let y2 ← subC (← subC (heightOf img) y) 1
      let p2 ← getPixel d x2 y2
      let d ← putPixel d x y p2
      putPixel d x2 y2 p)
    (fun x y => (x, y)) (fun x y => (widthOf img - x - 1, heightOf img - y - 1)) wi
    (fun x y _ _ => by dsimp only; omega) (fun x y _ _ => by dsimp only; omega)
    (fun x y x' y' _ _ _ _ h => by simp only [Prod.mk.injEq] at h; omega)
    (fun x y x' y' _ _ _ _ h => by simp only [Prod.mk.injEq] at h; omega)
    (fun x y x' y' _ _ _ _ h => by simp only [Prod.mk.injEq] at h; omega)
    (by
      intro x y hx hy d hw hd p q hp hq
      have e1 := widthOf_eq hd
      have e2 := heightOf_eq hd
      simp only at hp hq
      obtain ⟨d', f1, f2, f3, f4, f5, f6⟩ := put_put hw (x := x) (y := y) (x2 := widthOf img - x - 1)
        (y2 := heightOf img - y - 1) (by omega) (by omega) (by omega) (by omega) (by omega) q p
      refine ⟨d', ?_, f2, f3, f4, f5, fun a b ha hb h1 h2 => f6 a b ha hb ?_ ?_⟩
      · rw [hp, ok_bind, subC_ok (by omega), ok_bind, subC_ok (by omega), ok_bind,
          subC_ok (by omega), ok_bind, subC_ok (by omega), ok_bind, hq, ok_bind]
        exact f1
      · rintro ⟨rfl, rfl⟩; exact h1 rfl
      · rintro ⟨rfl, rfl⟩; exact h2 rfl)
  have e1 := widthOf_eq g3
  have e2 := heightOf_eq g3
  -- the outer rows after the first loop
  have outer : ∀ a b, a < widthOf img → b < heightOf img →
      (b < heightOf img / 2 ∨ heightOf img - 1 - b < heightOf img / 2) →
      getPixel d a b = getPixel img (widthOf img - 1 - a) (heightOf img - 1 - b) := by
    intro a b ha hb h
    by_cases h1 : b < heightOf img / 2
    · have := (g4 a b ha h1).1
      dsimp only at this
      rw [this]; congr 1 <;> omega
    · have := (g4 (widthOf img - 1 - a) (heightOf img - 1 - b) (by omega) (by omega)).2
      dsimp only at this
      rw [← this]; congr 1 <;> omega
  unfold rotate180InPlace
  dsimp only
  rw [g1, ok_bind]
  by_cases hodd : heightOf img % 2 ≠ 0
  · rw [if_pos hodd]
    obtain ⟨d2, k1, k2, k3, k4, k5⟩ := swap_loop (w := widthOf img / 2) (h := 1) (d0 := d)
      (body := fun x _ d => do
        let p ← getPixel d x (heightOf img / 2)
        let x2 ← subC (← subC (widthOf img) x) 1
        let p2 ← getPixel d x2 (heightOf img / 2)
        let d ← putPixel d x (heightOf img / 2) p2
        putPixel d x2 (heightOf img / 2) p)
      (fun x _ => (x, heightOf img / 2)) (fun x _ => (widthOf img - x - 1, heightOf img / 2)) g2
      (fun x y _ _ => by dsimp only; omega) (fun x y _ _ => by dsimp only; omega)
      (fun x y x' y' _ _ _ _ h => by simp only [Prod.mk.injEq] at h; omega)
      (fun x y x' y' _ _ _ _ h => by simp only [Prod.mk.injEq] at h; omega)
      (fun x y x' y' _ _ _ _ h => by simp only [Prod.mk.injEq] at h; omega)
      (by
        intro x y hx hy d' hw hd p q hp hq
        have e1 := widthOf_eq hd
        have e2 := heightOf_eq hd
        simp only at hp hq
        obtain ⟨d', f1, f2, f3, f4, f5, f6⟩ := put_put hw (x := x) (y := heightOf img / 2)
          (x2 := widthOf img - x - 1)
          (y2 := heightOf img / 2) (by omega) (by omega) (by omega) (by omega) (by omega) q p
        refine ⟨d', ?_, f2, f3, f4, f5, fun a b ha hb h1 h2 => f6 a b ha hb ?_ ?_⟩
        · rw [hp, ok_bind, subC_ok (by omega), ok_bind, subC_ok (by omega), ok_bind, hq, ok_bind]
          exact f1
        · rintro ⟨rfl, rfl⟩; exact h1 rfl
        · rintro ⟨rfl, rfl⟩; exact h2 rfl)
    refine ⟨d2, k1, k2, IsRot180.of_pull ((widthOf_eq k3).trans e1) ((heightOf_eq k3).trans e2)
      (fun a b ha hb => ?_)⟩
    by_cases hm : b = heightOf img / 2
    · -- the middle row: unchanged by the first loop
      have mid : ∀ a, a < widthOf img → getPixel d a b = getPixel img a b := fun a ha =>
        g5 a b ha hb (fun x y hx hy => by simp only [ne_eq, Prod.mk.injEq]; omega)
      have hb' : heightOf img - 1 - b = b := by omega
      rw [hb', ← mid _ (by omega)]
      subst hm
      by_cases h1 : a < widthOf img / 2
      · have := (k4 a 0 h1 (by omega)).1
        dsimp only at this
        rw [this]; congr 1; omega
      · by_cases h2 : widthOf img - 1 - a < widthOf img / 2
        · have := (k4 (widthOf img - 1 - a) 0 h2 (by omega)).2
          dsimp only at this
          rw [← this]; congr 1; omega
        · rw [k5 a _ (by omega) (by omega) (fun x y hx hy => by simp only [ne_eq, Prod.mk.injEq]; omega)]
          congr 1; omega
    · rw [k5 a b (by omega) (by omega) (fun x y hx hy => by simp only [ne_eq, Prod.mk.injEq]; omega)]
      exact outer a b ha hb (by omega)
  · rw [if_neg hodd]
    exact ⟨d, rfl, g2, IsRot180.of_pull e1 e2 (fun a b ha hb => outer a b ha hb (by omega))⟩
end

/-! The in-place operations equal the copying ones, including the container. -/

section
variable {α : Type} {ch : Nat}

theorem flipHorizontalInPlace_length {img d : ImageBuffer α ch} (h : flipHorizontalInPlace img = .ok d) :
    d.data.length = img.data.length := by
  unfold flipHorizontalInPlace at h
  dsimp only at h
  refine forRange_pres (fun e => e.data.length = img.data.length) (fun y s s' hs h' => ?_) rfl h
  refine forRange_pres (fun e => e.data.length = img.data.length) (fun x s s' hs h' => ?_) hs h'
  simp only [bind_eq_ok] at h'
  obtain ⟨_, _, _, _, _, _, _, _, e, h1, h2⟩ := h'
  exact (ImageBuffer.putPixel_length h2).trans ((ImageBuffer.putPixel_length h1).trans hs)

theorem flipVerticalInPlace_length {img d : ImageBuffer α ch} (h : flipVerticalInPlace img = .ok d) :
    d.data.length = img.data.length := by
  unfold flipVerticalInPlace at h
  dsimp only at h
  refine forRange_pres (fun e => e.data.length = img.data.length) (fun y s s' hs h' => ?_) rfl h
  refine forRange_pres (fun e => e.data.length = img.data.length) (fun x s s' hs h' => ?_) hs h'
  simp only [bind_eq_ok] at h'
  obtain ⟨_, _, _, _, _, _, _, _, e, h1, h2⟩ := h'
  exact (ImageBuffer.putPixel_length h2).trans ((ImageBuffer.putPixel_length h1).trans hs)

theorem rotate180InPlace_length {img d : ImageBuffer α ch} (h : rotate180InPlace img = .ok d) :
    d.data.length = img.data.length := by
  unfold rotate180InPlace at h
  dsimp only at h
  rw [bind_eq_ok] at h
  obtain ⟨m, h1, h2⟩ := h
  have hm : m.data.length = img.data.length := by
    refine forRange_pres (fun e => e.data.length = img.data.length) (fun y s s' hs h' => ?_) rfl h1
    refine forRange_pres (fun e => e.data.length = img.data.length) (fun x s s' hs h' => ?_) hs h'
    simp only [bind_eq_ok] at h'
    obtain ⟨_, _, _, _, _, _, _, _, _, _, _, _, e, h1, h2⟩ := h'
    exact (ImageBuffer.putPixel_length h2).trans ((ImageBuffer.putPixel_length h1).trans hs)
  split at h2
  · refine forRange_pres (fun e => e.data.length = img.data.length) (fun x s s' hs h' => ?_) hm h2
    simp only [bind_eq_ok] at h'
    obtain ⟨_, _, _, _, _, _, _, _, e, h1, h2⟩ := h'
    exact (ImageBuffer.putPixel_length h2).trans ((ImageBuffer.putPixel_length h1).trans hs)
  · cases h2; exact hm

variable (z : α) (img : ImageBuffer α ch) (hi : img.Exact) (hc : ch < 256)
include hi hc

theorem C14_flip_horizontal_in_place : flipHorizontalInPlace img = flipHorizontal z img := by
  obtain ⟨a, h1, h2, h3⟩ := C14_flip_horizontal_in_place_spec img hi.1
  obtain ⟨b, k1, k2, k3, k4⟩ := C13_flip_horizontal z img hi.1 hc hi.size
  have hl := flipHorizontalInPlace_length h1
  obtain ⟨wa, va, pa⟩ := h3.pull
  obtain ⟨wb, vb, pb⟩ := k4.pull
  rw [h1, k1]; congr 1
  refine ImageBuffer.ext_exact k2 h2 k3 ?_ ⟨h3.1.trans k4.1.symm, fun x y hx hy => ?_⟩
  · rw [hl, hi.2, show a.width = img.width from wa, show a.height = img.height from va]
  · rw [pa x y (by omega) (by omega), pb x y (by omega) (by omega)]

theorem C14_flip_vertical_in_place : flipVerticalInPlace img = flipVertical z img := by
  obtain ⟨a, h1, h2, h3⟩ := C14_flip_vertical_in_place_spec img hi.1
  obtain ⟨b, k1, k2, k3, k4⟩ := C13_flip_vertical z img hi.1 hc hi.size
  have hl := flipVerticalInPlace_length h1
  obtain ⟨wa, va, pa⟩ := h3.pull
  obtain ⟨wb, vb, pb⟩ := k4.pull
  rw [h1, k1]; congr 1
  refine ImageBuffer.ext_exact k2 h2 k3 ?_ ⟨h3.1.trans k4.1.symm, fun x y hx hy => ?_⟩
  · rw [hl, hi.2, show a.width = img.width from wa, show a.height = img.height from va]
  · rw [pa x y (by omega) (by omega), pb x y (by omega) (by omega)]

theorem C14_rotate180_in_place : rotate180InPlace img = rotate180 z img := by
  obtain ⟨a, h1, h2, h3⟩ := C14_rotate180_in_place_spec img hi.1
  obtain ⟨b, k1, k2, k3, k4⟩ := C13_rotate180 z img hi.1 hc hi.size
  have hl := rotate180InPlace_length h1
  obtain ⟨wa, va, pa⟩ := h3.pull
  obtain ⟨wb, vb, pb⟩ := k4.pull
  rw [h1, k1]; congr 1
  refine ImageBuffer.ext_exact k2 h2 k3 ?_ ⟨h3.1.trans k4.1.symm, fun x y hx hy => ?_⟩
  · rw [hl, hi.2, show a.width = img.width from wa, show a.height = img.height from va]
  · rw [pa x y (by omega) (by omega), pb x y (by omega) (by omega)]
end

-- Non-vacuity: an exact 3 × 2 image with one channel, and what the operations do to it.
def sample32 : ImageBuffer Nat 1 := ⟨3, 2, [1, 2, 3, 4, 5, 6]⟩
example : sample32.Exact := ⟨⟨by decide, by decide, by decide, by decide⟩, by decide⟩
example : rotate90 0 sample32 = .ok ⟨2, 3, [4, 1, 5, 2, 6, 3]⟩ := by rfl
example : rotate180 0 sample32 = .ok ⟨3, 2, [6, 5, 4, 3, 2, 1]⟩ := by rfl
example : rotate270 0 sample32 = .ok ⟨2, 3, [3, 6, 2, 5, 1, 4]⟩ := by rfl
example : flipHorizontal 0 sample32 = .ok ⟨3, 2, [3, 2, 1, 6, 5, 4]⟩ := by rfl
example : flipVertical 0 sample32 = .ok ⟨3, 2, [4, 5, 6, 1, 2, 3]⟩ := by rfl
example : flipHorizontalInPlace sample32 = .ok ⟨3, 2, [3, 2, 1, 6, 5, 4]⟩ := by rfl
example : rotate90In sample32 sample32 = errR .dimensionMismatch := by rfl

end Verif
