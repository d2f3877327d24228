import Verif.Model.FlatMut
import Verif.Props.Flat

/-!
# Sample-level and mutable access of flat buffers (C131)

Specification vocabulary, from `Props/Flat.lean`: `SampleLayout.Inside l c x y` (the coordinate is inside the
image), `SampleLayout.pos l c x y` (`c * channel_stride + x * width_stride + y * height_stride`),
`FlatOk`/`FlatMutOk` (what `as_view`/`as_view_mut` check), `ZeroStride` (an extent above one with stride zero).
-/

namespace Verif
open GenericImageView GenericImage LawfulView LawfulImage SampleLayout

section
variable {α : Type} {ch : Nat}

/-- The effect of a write to one sample of a strided buffer: layout and length stay, the element at the
position is updated and no other element of the buffer changes. -/
structure WroteSample (f f' : FlatSamples α) (c x y : Nat) (upd : α → α) : Prop where
  layout : f'.layout = f.layout
  length : f'.samples.length = f.samples.length
  here : ∀ a, f.samples[f.layout.pos c x y]? = some a → f'.samples[f.layout.pos c x y]? = some (upd a)
  elsewhere : ∀ i, i ≠ f.layout.pos c x y → f'.samples[i]? = f.samples[i]?

theorem wroteSample_set (f : FlatSamples α) (c x y : Nat) (upd : α → α) {a : α}
    (ha : f.samples[f.layout.pos c x y]? = some a) :
    WroteSample f ⟨f.samples.set (f.layout.pos c x y) (upd a), f.layout⟩ c x y upd := by
  have hlt : f.layout.pos c x y < f.samples.length := by
    rw [List.getElem?_eq_some_iff] at ha; exact ha.1
  refine ⟨rfl, by simp, fun b hb => ?_, fun i hi => ?_⟩
  · rw [ha] at hb; cases hb
    simp [hlt]
  · simp only
    rw [List.getElem?_set_ne (Ne.symm hi)]

theorem WroteSample.flatOk {f f' : FlatSamples α} {c x y : Nat} {upd : α → α} (h : WroteSample f f' c x y upd)
    (hf : FlatOk ch f) : FlatOk ch f' :=
  ⟨by rw [h.layout]; exact hf.typed, by rw [h.layout]; exact hf.chans, hf.pos, by rw [h.length]; exact hf.len64,
    by rw [h.layout, h.length]; exact hf.fits⟩

/-- `View::min_length`, `image_slice` never fail on a view: the slice is the beginning of the buffer that
contains every sample of the image, and it is what `FlatSamples::image_slice` returns. -/
theorem C131_image_slice (v : FlatView α ch) (hv : FlatOk ch v.inner) :
    ∃ n s, v.minLength = .ok n ∧ v.imageSlice = .ok s ∧ s.length = n ∧ s <+: v.inner.samples ∧
      v.inner.imageSlice = some s ∧ (⟨v.inner⟩ : FlatViewMut α ch).imageSlice = .ok s ∧
      ∀ c x y, v.inner.layout.Inside c x y →
        v.inner.layout.pos c x y < n ∧ s[v.inner.layout.pos c x y]? = v.inner.samples[v.inner.layout.pos c x y]? := by
  have hfit := hv.fits
  unfold SampleLayout.fits at hfit
  cases hm : v.inner.layout.minLength with
  | none => rw [hm] at hfit; cases hfit
  | some n =>
    rw [hm] at hfit
    have hn : n ≤ v.inner.samples.length := of_decide_eq_true hfit
    have hs : sliceR v.inner.samples 0 n = .ok (v.inner.samples.take n) := by
      rw [sliceR_ok (by omega) hn]; simp
    refine ⟨n, v.inner.samples.take n, by rw [FlatView.minLength, hm]; rfl, ?_, by simp; omega,
      List.take_prefix _ _, ?_, ?_, ?_⟩
    · rw [FlatView.imageSlice, FlatView.minLength, hm]; exact hs
    · rw [FlatSamples.imageSlice, hm]; simp; omega
    · rw [FlatViewMut.imageSlice, FlatViewMut.minLength, hm]; exact hs
    · intro c x y hi
      have hfn : v.inner.layout.fits n = true := by unfold SampleLayout.fits; rw [hm]; simp
      have := ((C22_fits v.inner.layout n hfn c x y).1 hi).1
      exact ⟨this, by rw [List.getElem?_take_of_lt this]⟩

/-- `get_sample` of a view is the sample at the strided position inside the image and `None` outside; it
never panics and agrees with `get_sample` of the samples and of a mutable view. -/
theorem C131_get_sample (v : FlatView α ch) (hv : FlatOk ch v.inner) (c x y : Nat) :
    (v.inner.layout.Inside c x y → ∃ a, v.getSample c x y = .ok (some a) ∧
      v.inner.samples[v.inner.layout.pos c x y]? = some a) ∧
    (¬ v.inner.layout.Inside c x y → v.getSample c x y = .ok none) ∧
    v.getSample c x y = .ok (v.inner.getSample c x y) ∧
    (⟨v.inner⟩ : FlatViewMut α ch).getSample c x y = v.getSample c x y := by
  obtain ⟨g1, g2⟩ := C22_fits v.inner.layout _ hv.fits c x y
  by_cases hi : v.inner.layout.Inside c x y
  · obtain ⟨d1, d2, d3, d4⟩ := g1 hi
    have h1 : v.getSample c x y = .ok v.inner.samples[v.inner.layout.pos c x y]? := by
      unfold FlatView.getSample
      rw [if_neg (by simp [inBounds_iff.2 hi]), d4]; rfl
    refine ⟨fun _ => ⟨_, by rw [h1, List.getElem?_eq_getElem d1], List.getElem?_eq_getElem d1⟩,
      fun h => absurd hi h, ?_, rfl⟩
    rw [h1, FlatSamples.getSample, d3]; rfl
  · have hb : v.inner.layout.inBounds c x y = false := by
      rw [← Bool.not_eq_true, inBounds_iff]; exact hi
    have h1 : v.getSample c x y = .ok none := by
      unfold FlatView.getSample; rw [hb]; rfl
    refine ⟨fun h => absurd h hi, fun _ => h1, ?_, rfl⟩
    rw [h1, FlatSamples.getSample, g2 hi]; rfl

/-- The channels of `get_pixel` are the results of `get_sample`. -/
theorem C131_pixel_samples (v : FlatView α ch) (hv : FlatOk ch v.inner) (x y : Nat) (p : Pix α ch)
    (hp : getPixel v x y = .ok p) (c : Fin ch) : v.getSample c x y = .ok (some (p c)) := by
  by_cases hxy : x < v.inner.layout.width ∧ y < v.inner.layout.height
  · obtain ⟨hx, hy⟩ := hxy
    have hat := (flatGetPixel_eq hv hx hy p).1 hp c
    obtain ⟨a, h1, h2⟩ := (C131_get_sample v hv c x y).1 ⟨by rw [hv.chans]; exact c.isLt, hx, hy⟩
    rw [hat] at h2; cases h2; exact h1
  · have : getPixel v x y = .error .panic := C25_get_pixel_outside v.inner x y hxy
    rw [this] at hp; cases hp

/-- Writing through `get_mut_sample` of a view (mutable or not): never a panic; `None` exactly outside the
image; inside, exactly one element of the buffer changes, so `get_sample` afterwards returns the updated value
at all coordinates with the same position and the old value at all others. -/
theorem C131_get_mut_sample (v : FlatView α ch) (hv : FlatOk ch v.inner) (c x y : Nat) (upd : α → α) :
    (v.inner.layout.Inside c x y → ∃ v' a, v.modifySample c x y upd = .ok (some v') ∧
      (⟨v.inner⟩ : FlatViewMut α ch).modifySample c x y upd = .ok (some ⟨v'.inner⟩) ∧
      WroteSample v.inner v'.inner c x y upd ∧ FlatOk ch v'.inner ∧ v.getSample c x y = .ok (some a) ∧
      (∀ c' x' y', v.inner.layout.Inside c' x' y' → v.inner.layout.pos c' x' y' = v.inner.layout.pos c x y →
        v'.getSample c' x' y' = .ok (some (upd a))) ∧
      ∀ c' x' y', v.inner.layout.pos c' x' y' ≠ v.inner.layout.pos c x y →
        v'.getSample c' x' y' = v.getSample c' x' y') ∧
    (¬ v.inner.layout.Inside c x y → v.modifySample c x y upd = .ok none ∧
      (⟨v.inner⟩ : FlatViewMut α ch).modifySample c x y upd = .ok none) := by
  constructor
  · intro hi
    obtain ⟨d1, d2, d3, d4⟩ := (C22_fits v.inner.layout _ hv.fits c x y).1 hi
    obtain ⟨a, ha1, ha2⟩ := (C131_get_sample v hv c x y).1 hi
    have hw := wroteSample_set v.inner c x y upd ha2
    have hm : viewModifySample v.inner c x y upd = .ok (some
        ⟨v.inner.samples.set (v.inner.layout.pos c x y) (upd a), v.inner.layout⟩) := by
      unfold viewModifySample
      rw [if_neg (by simp [inBounds_iff.2 hi]), d4]
      simp [ok_bind, ha2]
    have hok := hw.flatOk hv
    refine ⟨⟨_⟩, a, by rw [FlatView.modifySample, hm]; rfl, by rw [FlatViewMut.modifySample, hm]; rfl, hw, hok, ha1, ?_, ?_⟩
    · intro c' x' y' hi' he
      obtain ⟨b, hb1, hb2⟩ := (C131_get_sample ⟨_⟩ hok c' x' y').1 hi'
      have h3 := hw.here a ha2
      simp only at hb2
      rw [he] at hb2
      simp only at h3
      rw [h3] at hb2; cases hb2
      exact hb1
    · intro c' x' y' hne
      by_cases hi' : v.inner.layout.Inside c' x' y'
      · obtain ⟨b, hb1, hb2⟩ := (C131_get_sample ⟨_⟩ hok c' x' y').1 hi'
        obtain ⟨b', hb1', hb2'⟩ := (C131_get_sample v hv c' x' y').1 hi'
        have h4 := hw.elsewhere _ hne
        simp only at hb2 h4
        rw [h4, hb2'] at hb2; cases hb2
        rw [hb1, hb1']
      · rw [(C131_get_sample v hv c' x' y').2.1 hi', (C131_get_sample ⟨_⟩ hok c' x' y').2.1 hi']
  · intro hi
    have hb : v.inner.layout.inBounds c x y = false := by
      rw [← Bool.not_eq_true, inBounds_iff]; exact hi
    have hm : viewModifySample v.inner c x y upd = .ok none := by unfold viewModifySample; rw [hb]; rfl
    exact ⟨by rw [FlatView.modifySample, hm]; rfl, by rw [FlatViewMut.modifySample, hm]; rfl⟩

/-- On a mutable view without zero strides a write to one sample changes no other sample of the image, and the
view stays a mutable view. -/
theorem C131_single_sample_partial (v : FlatViewMut α ch) (hv : FlatMutOk ch v.inner)
    (hz : ¬ v.inner.layout.ZeroStride) (c x y : Nat) (upd : α → α) (hi : v.inner.layout.Inside c x y) :
    ∃ v' a, v.modifySample c x y upd = .ok (some v') ∧ FlatMutOk ch v'.inner ∧
      v.getSample c x y = .ok (some a) ∧ v'.getSample c x y = .ok (some (upd a)) ∧
      ∀ c' x' y', v.inner.layout.Inside c' x' y' → ¬ (c' = c ∧ x' = x ∧ y' = y) →
        v'.getSample c' x' y' = v.getSample c' x' y' := by
  obtain ⟨v', a, h1, h2, h3, h4, h5, h6, h7⟩ := (C131_get_mut_sample ⟨v.inner⟩ hv.toFlatOk c x y upd).1 hi
  refine ⟨⟨v'.inner⟩, a, h2, ⟨h4, by rw [h3.layout]; exact hv.normal⟩, h5, h6 c x y hi rfl, ?_⟩
  intro c' x' y' hi' hne
  refine h7 c' x' y' fun he => hne ?_
  exact C23_unaliased_partial _ hz hv.unaliased c' x' y' c x y hi' hi he

/-- The warning of `View::get_mut_sample` is real: there is a view from `as_view_with_mut_samples` in which a
write to one sample changes another one. -/
theorem C131_aliased_warning : ∃ (f : FlatSamples Nat) (v v' : FlatView Nat 1),
    f.asViewWithMutSamples 1 = .ok v ∧ v.modifySample 0 0 0 (· + 1) = .ok (some v') ∧
      v.getSample 0 1 0 = .ok (some 7) ∧ v'.getSample 0 1 0 = .ok (some 8) := by
  exact ⟨⟨[7], ⟨1, 1, 2, 0, 1, 0⟩⟩, ⟨⟨[7], ⟨1, 1, 2, 0, 1, 0⟩⟩⟩, ⟨⟨[8], ⟨1, 1, 2, 0, 1, 0⟩⟩⟩, rfl, rfl, rfl, rfl⟩

/-- `get_mut_sample` and `index_mut` of `FlatSamples`, for any layout and any buffer: they reach a sample
exactly when `get_sample` and `index` do, then write exactly that element; otherwise `None` and a panic. -/
theorem C131_flat_samples (f : FlatSamples α) (c x y : Nat) (upd : α → α) :
    (∀ a, f.getSample c x y = some a → f.indexCXY c x y = .ok a ∧ ∃ f', f.modifySample c x y upd = some f' ∧
      f.indexMutCXY c x y upd = .ok f' ∧ f'.getSample c x y = some (upd a) ∧ WroteSample f f' c x y upd) ∧
    (f.getSample c x y = none → f.modifySample c x y upd = none ∧ f.indexCXY c x y = .error .panic ∧
      f.indexMutCXY c x y upd = .error .panic) := by
  unfold FlatSamples.getSample FlatSamples.modifySample FlatSamples.indexMutCXY FlatSamples.indexCXY
  cases hx : f.layout.index c x y with
  | none => exact ⟨fun a h => (by cases h), fun _ => ⟨rfl, rfl, rfl⟩⟩
  | some idx =>
    have hin : f.layout.Inside c x y := by
      rw [← inBounds_iff]
      unfold SampleLayout.index at hx
      by_cases hb : f.layout.inBounds c x y = true
      · exact hb
      · rw [if_neg hb] at hx; cases hx
    have hidx : idx = f.layout.pos c x y := by
      rw [index_eq hin] at hx
      split at hx
      · cases hx; rfl
      · cases hx
    simp only [Option.bind_some]
    cases hs : f.samples[idx]? with
    | none =>
      refine ⟨fun a h => (by cases h), fun _ => ⟨rfl, ?_, ?_⟩⟩
      · simp [unwrapR, ok_bind, hs, panicR]
      · simp only [unwrapR, ok_bind, hs]; rfl
    | some a =>
      refine ⟨fun b h => ?_, fun h => by cases h⟩
      cases h
      have hlt : idx < f.samples.length := by rw [List.getElem?_eq_some_iff] at hs; exact hs.1
      refine ⟨by simp [unwrapR, ok_bind, hs], ⟨f.samples.set idx (upd a), f.layout⟩, rfl,
        by simp [unwrapR, ok_bind, hs], ?_, ?_⟩
      · simp [hx, hlt]
      · rw [hidx] at hs ⊢; exact wroteSample_set f c x y upd hs

/-- `try_upgrade` of a view is `as_view_mut` of its samples: same success, same error. -/
theorem C131_try_upgrade (f : FlatSamples α) (v : FlatView α ch) (h : f.asViewWithMutSamples ch = .ok v) :
    v.tryUpgrade = v.inner.asViewMut ch ∧ v.inner = f ∧ ∃ r, v.tryUpgrade = .ok r := by
  have h' : f.asView ch = .ok v := h
  obtain ⟨h1, h2, h3⟩ := (C25_as_view ch f v).1 h'
  rw [← h3] at h1 h2
  have key : v.tryUpgrade = v.inner.asViewMut ch := by
    unfold FlatView.tryUpgrade FlatSamples.asViewMut
    obtain ⟨r, hr⟩ := C24_total v.inner.layout .PixelPacked
    rw [hr]
    cases r
    · rfl
    · simp [ok_bind, h1, h2]
  exact ⟨key, h3, by rw [key]; exact (C25_as_view_mut ch v.inner).1⟩

/-- `image_mut_slice`: after the holder replaced the contents of the slice (its length cannot change) the
beginning of the buffer is the new contents, the rest is what it was; no panic on a view. -/
theorem C131_image_mut_slice (v : FlatView α ch) (hv : FlatOk ch v.inner) (upd : List α → List α)
    (hu : ∀ l, (upd l).length = l.length) :
    ∃ s v', v.imageSlice = .ok s ∧ v.modifyImageSlice upd = .ok v' ∧ FlatOk ch v'.inner ∧
      v'.inner.layout = v.inner.layout ∧ v'.imageSlice = .ok (upd s) ∧
      v'.inner.samples = upd s ++ v.inner.samples.drop s.length ∧
      v.inner.modifyImageSlice upd = some v'.inner ∧
      (⟨v.inner⟩ : FlatViewMut α ch).modifyImageSlice upd = .ok ⟨v'.inner⟩ := by
  have hfit := hv.fits
  unfold SampleLayout.fits at hfit
  cases hm : v.inner.layout.minLength with
  | none => rw [hm] at hfit; cases hfit
  | some n =>
    rw [hm] at hfit
    have hn : n ≤ v.inner.samples.length := of_decide_eq_true hfit
    have hs : sliceR v.inner.samples 0 n = .ok (v.inner.samples.take n) := by
      rw [sliceR_ok (by omega) hn]; simp
    have hlen : (upd (v.inner.samples.take n)).length = n := by rw [hu]; simp; omega
    have how : overwrite v.inner.samples 0 (upd (v.inner.samples.take n)) =
        upd (v.inner.samples.take n) ++ v.inner.samples.drop n := by
      unfold overwrite; simp [hlen]
    have hlen' : (overwrite v.inner.samples 0 (upd (v.inner.samples.take n))).length = v.inner.samples.length := by
      rw [how]; simp [hlen]; omega
    have hmod : viewModifyImageSlice v.inner upd =
        .ok ⟨overwrite v.inner.samples 0 (upd (v.inner.samples.take n)), v.inner.layout⟩ := by
      unfold viewModifyImageSlice
      rw [hm]; simp [unwrapR, ok_bind, hs]
    refine ⟨v.inner.samples.take n,
      ⟨⟨overwrite v.inner.samples 0 (upd (v.inner.samples.take n)), v.inner.layout⟩⟩, ?_, by rw [FlatView.modifyImageSlice, hmod]; rfl, ?_, rfl, ?_, ?_, ?_,
      by rw [FlatViewMut.modifyImageSlice, hmod]; rfl⟩
    · rw [FlatView.imageSlice, FlatView.minLength, hm]; exact hs
    · exact ⟨hv.typed, hv.chans, hv.pos, by simp only; rw [hlen']; exact hv.len64, by
        simp only; rw [hlen']; exact hv.fits⟩
    · rw [FlatView.imageSlice, FlatView.minLength]
      simp only [hm, unwrapR, ok_bind]
      rw [sliceR_ok (by omega) (by rw [hlen']; exact hn), how]
      simp [hlen]
    · simp only; rw [how]; simp [Nat.min_eq_left hn]
    · rw [FlatSamples.modifyImageSlice, hm]; simp; omega

/-- `get_pixel_mut` hands out the pixel `get_pixel` returns, and what its holder leaves there is what `put_pixel`
would have stored; in particular `blend_pixel` is `get_pixel`, `blend`, `put_pixel`. -/
theorem C131_get_pixel_mut (v : FlatViewMut α ch) (hv : FlatMutOk ch v.inner) (x y : Nat)
    (upd : Pix α ch → R (Pix α ch)) :
    v.modifyPixel x y upd = (do
      let p ← getPixel v x y
      let q ← upd p
      v.putPixel x y q) := by
  by_cases hxy : x < v.inner.layout.width ∧ y < v.inner.layout.height
  · obtain ⟨hx, hy⟩ := hxy
    have h0 : v.inner.layout.Inside 0 x y := ⟨by rw [hv.chans]; exact hv.pos, hx, hy⟩
    have hp0 := hv.pos
    obtain ⟨b1, b2, -, b4⟩ := (C22_fits v.inner.layout _ hv.fits 0 x y).1 h0
    have hpos : ∀ c, v.inner.layout.pos c x y = v.inner.layout.pos 0 x y + c := by
      intro c; have := pos_add v.inner.layout c x y; rw [hv.stride] at this; omega
    obtain ⟨d1, d2, -, -⟩ := (C22_fits v.inner.layout _ hv.fits (ch - 1) x y).1
      ⟨by rw [hv.chans]; omega, hx, hy⟩
    rw [hpos] at d1 d2
    have hl := hv.len64
    obtain ⟨-, p, hp, hat⟩ := C25_get_pixel v.inner hv.toFlatOk x y hx hy
    have hg : getPixel v x y = .ok p := hp
    have hs : sliceR v.inner.samples (v.inner.layout.pos 0 x y) (v.inner.layout.pos 0 x y + ch) = _ :=
      sliceR_ok (by omega) (by omega)
    have hfs : fromSlice ch ((v.inner.samples.drop (v.inner.layout.pos 0 x y)).take ch) = .ok p := by
      rw [fromSlice_eq_ok]
      refine ⟨by simp; omega, fun c => ?_⟩
      rw [List.getElem?_take_of_lt c.isLt, List.getElem?_drop, ← hpos]
      exact hat c
    have hslice : sliceR v.inner.samples (v.inner.layout.pos 0 x y) (v.inner.layout.pos 0 x y + ch) =
        .ok ((v.inner.samples.drop (v.inner.layout.pos 0 x y)).take ch) := by
      rw [hs]; congr 1; simp [List.take_drop, Nat.add_comm]
    rw [hg]
    unfold FlatViewMut.modifyPixel FlatViewMut.putPixel
    rw [if_neg (by simp [inBounds_iff.2 h0]), b4]
    simp only [ok_bind]
    rw [addC_ok (by omega)]
    simp only [ok_bind, hslice, hfs]
    cases upd p with
    | error e => rfl
    | ok q => simp [ok_bind, inBounds_iff.2 h0]
  · have hb : v.inner.layout.inBounds 0 x y = false := by
      rw [← Bool.not_eq_true, inBounds_iff]; exact fun hh => hxy hh.2
    have : getPixel v x y = .error .panic := C25_get_pixel_outside v.inner x y hxy
    rw [this]
    unfold FlatViewMut.modifyPixel
    rw [hb]; rfl

/-- A planar 2×2 two-channel buffer with a gap satisfies what a view relies on, and a write through it changes
one sample. -/
example : FlatOk 2 (⟨[1, 2, 3, 4, 0, 5, 6, 7, 8], ⟨2, 5, 2, 1, 2, 2⟩⟩ : FlatSamples Nat) :=
  ⟨⟨by decide, by decide, by decide, by decide, by decide, by decide⟩, rfl, by decide, by decide, rfl⟩
example : (⟨⟨[1, 2, 3, 4, 0, 5, 6, 7, 8], ⟨2, 5, 2, 1, 2, 2⟩⟩⟩ : FlatView Nat 2).modifySample 1 0 1 (· * 10) =
    .ok (some ⟨⟨[1, 2, 3, 4, 0, 5, 6, 70, 8], ⟨2, 5, 2, 1, 2, 2⟩⟩⟩) := rfl
/-- A padded row-major RGB-like layout is a mutable view without zero strides. -/
example : FlatMutOk 2 (⟨[1, 2, 3, 4, 0, 5, 6, 7, 8], ⟨2, 1, 2, 2, 2, 5⟩⟩ : FlatSamples Nat) ∧
    ¬ (⟨2, 1, 2, 2, 2, 5⟩ : SampleLayout).ZeroStride :=
  ⟨⟨⟨⟨by decide, by decide, by decide, by decide, by decide, by decide⟩, rfl, by decide, by decide, rfl⟩, rfl⟩,
    by unfold SampleLayout.ZeroStride; decide⟩
example : (⟨⟨[1, 2, 3, 4, 0, 5, 6, 7, 8], ⟨2, 1, 2, 2, 2, 5⟩⟩⟩ : FlatViewMut Nat 2).modifyPixel 1 1
    (fun p => .ok fun c => p c + 1) =
    .ok ⟨⟨[1, 2, 3, 4, 0, 5, 6, 8, 9], ⟨2, 1, 2, 2, 2, 5⟩⟩⟩ := by rfl

end
end Verif
