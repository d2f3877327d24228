import Verif.Model.DynOps
import Verif.Proofs.Prefix
import Verif.Proofs.Buffer
import Verif.Proofs.Loops
import Verif.Proofs.GenericOps

/-!
# The sizes of results (for C108)
-/

namespace Verif
open GenericImageView GenericImage

variable {α : Type} {ch : Nat}

/-- The buffer has the given size and holds all its pixels. -/
def HasSize (w h : Nat) (b : ImageBuffer α ch) : Prop := b.Inv ∧ b.width = w ∧ b.height = h

theorem forRange_post {σ : Type} (P : σ → Prop) {f : Nat → σ → R σ} (n : Nat) (s : σ) (h : P s) (hf : ∀ i s, i < n → P s → Post P (f i s)) :
    Post P (forRange n f s) := by
  induction n with
  | zero => exact .ok h
  | succ n ih => exact (ih fun i s hi => hf i s (by omega)).bind fun a ha => hf n a (by omega) ha

theorem new_post (hc : ch < 256) (z : α) (w h : Nat) (hw : w < 2 ^ 32) (hh : h < 2 ^ 32) :
    Post (HasSize w h) (ImageBuffer.new ch z w h) := by
  intro b hb
  by_cases hs : w * h * ch < 2 ^ 64
  · rw [ImageBuffer.new_ok hc hw hs] at hb
    cases hb
    exact ⟨ImageBuffer.new_inv hw hh hs, rfl, rfl⟩
  · unfold ImageBuffer.new at hb
    rw [ImageBuffer.imageBufferLen_eq hc hw, if_neg hs] at hb
    cases hb

theorem put_post {w h : Nat} {b : ImageBuffer α ch} (hb : HasSize w h b) (x y : Nat) (p : Pix α ch) :
    Post (HasSize w h) (b.putPixel x y p) := by
  intro b' hb'
  by_cases hxy : x < b.width ∧ y < b.height
  · obtain ⟨b'', e, i, h1, h2, -⟩ := ImageBuffer.put_spec hb.1 hxy.1 hxy.2 p
    rw [hb'] at e
    cases e
    exact ⟨i, h1.trans hb.2.1, h2.trans hb.2.2⟩
  · unfold ImageBuffer.putPixel ImageBuffer.pixelIndices at hb'
    rw [if_pos (by omega)] at hb'
    cases hb'

theorem overPixels_post {I P : Type} [GenericImageView I P] (image : I) (f : P → R (Pix α ch)) {w h : Nat} {out : ImageBuffer α ch}
    (ho : HasSize w h out) : Post (HasSize w h) (overPixels image f out) := by
  unfold overPixels
  refine Post.any fun items => ?_
  exact forList_post (fun _ => HasSize w h) items out ho fun x xs s hs => Post.any fun q => put_post hs _ _ _

section
variable {I : Type} [GenericImageView I (Pix α ch)]

theorem verticalSample_post (S : Samp α) (image : I) (hw : widthOf image < 2 ^ 32) (nh : Nat) (hnh : nh < 2 ^ 32) (f : Filter) :
    Post (HasSize (widthOf image) nh) (verticalSample S image nh f) := by
  unfold verticalSample
  refine Post.any fun _ => (new_post (by omega) _ _ _ hw hnh).bind fun out ho => ?_
  exact forRange_post _ _ _ ho fun i s _ hs => forRange_post _ _ _ hs fun x s _ hs => Post.any fun t => put_post hs _ _ _

theorem horizontalSample_post (hc : ch < 256) (S : Samp α) (image : ImageBuffer Fl 4) (hh : image.height < 2 ^ 32) (nw : Nat) (hnw : nw < 2 ^ 32)
    (f : Filter) : Post (HasSize nw image.height) (horizontalSample ch S image nw f) := by
  unfold horizontalSample
  refine Post.any fun _ => (new_post hc _ _ _ hnw hh).bind fun out ho => ?_
  exact forRange_post _ _ _ ho fun i s _ hs => forRange_post _ _ _ hs fun x s _ hs =>
    Post.any fun t => Post.any fun _ => Post.any fun _ => Post.any fun _ => Post.any fun _ => put_post hs _ _ _

theorem blur_post (hc : ch < 256) (L : Libm) (S : Samp α) (image : I) (hw : widthOf image < 2 ^ 32) (hh : heightOf image < 2 ^ 32) (sigma : Fl) :
    Post (HasSize (widthOf image) (heightOf image)) (blur L S image sigma) := by
  unfold blur
  dsimp only
  split
  · exact new_post hc _ _ _ hw hh
  · refine (verticalSample_post S image hw _ hh _).bind fun t ht => ?_
    have := horizontalSample_post hc S t (by rw [ht.2.2]; exact hh) (widthOf image) hw (blurFilter L sigma)
    rw [ht.2.2] at this
    exact this

theorem filter3x3_post (hc : ch < 256) (S : Samp α) (image : I) (hw : widthOf image < 2 ^ 32) (hh : heightOf image < 2 ^ 32) (k : List Fl) :
    Post (HasSize (widthOf image) (heightOf image)) (filter3x3 S image k) := by
  unfold filter3x3
  refine (new_post hc _ _ _ hw hh).bind fun out ho => Post.any fun h1 => ?_
  exact forRange_post _ _ _ ho fun i s _ hs => Post.any fun w1 => forRange_post _ _ _ hs fun x s _ hs =>
    Post.any fun t => Post.any fun _ => Post.any fun _ => Post.any fun _ => Post.any fun _ => put_post hs _ _ _

theorem contrast_post (hc : ch < 256) (S : Samp α) (image : I) (hw : widthOf image < 2 ^ 32) (hh : heightOf image < 2 ^ 32) (c : Fl) :
    Post (HasSize (widthOf image) (heightOf image)) (contrastCopy S c image) := by
  unfold contrastCopy
  exact (new_post hc _ _ _ hw hh).bind fun out ho => overPixels_post _ _ ho

end

section
variable {I : Type} [GenericImageView I (Pix Nat ch)]

theorem unsharpen_post (hc : ch < 256) (L : Libm) (T : Prim) (image : I) (hw : widthOf image < 2 ^ 32) (hh : heightOf image < 2 ^ 32) (sigma : Fl)
    (t : Int) : Post (HasSize (widthOf image) (heightOf image)) (unsharpen L T image sigma t) := by
  unfold unsharpen
  refine (blur_post hc L _ image hw hh sigma).bind fun tmp ht => ?_
  split
  · exact forRange_post _ _ _ ht fun i s _ hs => forRange_post _ _ _ hs fun x s _ hs =>
      Post.any fun _ => Post.any fun _ => Post.any fun _ => Post.any fun _ => put_post hs _ _ _
  · exact Post.panicR

theorem brighten_post (hc : ch < 256) (T : Prim) (a : Nat) (image : I) (hw : widthOf image < 2 ^ 32) (hh : heightOf image < 2 ^ 32) (v : Int) :
    Post (HasSize (widthOf image) (heightOf image)) (brighten T a v image) := by
  unfold brighten
  refine (new_post hc _ _ _ hw hh).bind fun out ho => ?_
  split
  · exact overPixels_post _ _ ho
  · exact Post.panicR

theorem huerotate_post (hc : ch < 256) (trig : Trig) (T : Prim) (image : I) (hw : widthOf image < 2 ^ 32) (hh : heightOf image < 2 ^ 32) (v : Int) :
    Post (HasSize (widthOf image) (heightOf image)) (huerotate trig T v image) := by
  unfold huerotate
  refine (new_post hc _ _ _ hw hh).bind fun out ho => ?_
  exact forRange_post _ _ _ ho fun i s _ hs => forRange_post _ _ _ hs fun x s _ hs =>
    Post.any fun _ => Post.any fun _ => put_post hs _ _ _

theorem thumbnail_post (hc : ch < 256) (T : Prim) (image : I) (nw nh : Nat) (hw : nw < 2 ^ 32) (hh : nh < 2 ^ 32) :
    Post (HasSize nw nh) (thumbnail T image nw nh) := by
  unfold thumbnail
  refine (new_post hc _ _ _ hw hh).bind fun out ho => ?_
  split
  · exact .ok ho
  · exact forRange_post _ _ _ ho fun i s _ hs => forRange_post _ _ _ hs fun x s _ hs => Post.any fun _ => put_post hs _ _ _

end

theorem resize_post (hc : ch < 256) (L : Libm) (S : Samp α) (image : ImageBuffer α ch) (hi : image.Inv) (nw nh : Nat) (hw : nw < 2 ^ 32)
    (hh : nh < 2 ^ 32) (ft : FilterType) : Post (HasSize nw nh) (resize L S image nw nh ft) := by
  unfold resize
  split
  · exact new_post hc _ _ _ hw hh
  · split
    · rename_i h
      refine (new_post hc _ _ _ (show widthOf image < 2 ^ 32 from hi.w32) (show heightOf image < 2 ^ 32 from hi.h32)).bind fun tmp ht => ?_
      have hsz : widthOf image = nw ∧ heightOf image = nh := by
        simp only [dims] at h
        injection h with h1 h2
        exact ⟨h1.symm, h2.symm⟩
      rw [hsz.1, hsz.2] at ht
      have : Post (HasSize nw nh) (copyFrom tmp image 0 0) := by
        unfold copyFrom
        refine Post.any fun _ => ?_
        split
        · exact Post.errR
        refine Post.any fun _ => ?_
        split
        · exact Post.errR
        exact forRange_post _ _ _ ht fun i s _ hs => forRange_post _ _ _ hs fun x s _ hs =>
          Post.any fun p => Post.any fun _ => Post.any fun _ => put_post hs _ _ _
      intro b hb
      apply this
      revert hb
      cases copyFrom tmp image 0 0 with
      | ok t => exact id
      | error e => intro h; cases h
    · refine (verticalSample_post S image hi.w32 nh hh _).bind fun t ht => ?_
      have := horizontalSample_post hc S t (by rw [ht.2.2]; exact hh) nw hw (ft.method L)
      rw [ht.2.2] at this
      exact this

theorem fastBlur_post (hc : ch < 256) (L : Libm) (S : Samp α) (image : ImageBuffer α ch) (hi : image.Inv) (sigma : Fl) :
    Post (HasSize image.width image.height) (fastBlur L S image sigma) := by
  unfold fastBlur
  dsimp only
  split
  · exact .ok ⟨hi, rfl, rfl⟩
  · have half : ∀ (s : List α) (w h r : Nat), Post (fun l => l.length < 2 ^ 64) (horizontalHalf S s w h r ch) := by
      intro s w h r
      unfold horizontalHalf
      refine Post.any fun cs => ?_
      refine Post.bind (Q := fun n => n < 2 ^ 64) ?_ fun n hn => ?_
      · intro n hn
        unfold mulC at hn
        split at hn
        · cases hn; assumption
        · cases hn
      · have step : ∀ row col c (out : List α) v, out.length < 2 ^ 64 →
            Post (fun r => r.1.length < 2 ^ 64) (blurStep S s w h r ch row col c out v) := by
          intro row col c out v ho
          unfold blurStep
          refine Post.any fun x => ?_
          refine Post.bind (Q := fun l => l.length < 2 ^ 64) ?_ fun l hl => ?_
          · intro l hl
            unfold Jpeg.setR at hl
            split at hl
            · cases hl; simpa using ho
            · cases hl
          · exact Post.any fun a => Post.any fun b => .ok hl
        refine forRange_post _ _ _ (by simpa using hn) fun i out _ ho => Post.any fun vals => ?_
        refine Post.bind (Q := fun (s : List α × (Nat → Fl)) => s.1.length < 2 ^ 64) ?_ fun s hs => .ok hs
        refine forRange_post (fun (s : List α × (Nat → Fl)) => s.1.length < 2 ^ 64) _ _ ho fun col s _ hs => ?_
        refine forRange_post (fun (s : List α × (Nat → Fl)) => s.1.length < 2 ^ 64) _ _ hs fun c s _ hs => ?_
        exact (step _ _ _ _ _ hs).bind fun a ha => .ok ha
    refine Post.bind (Q := fun (l : List α) => l.length < 2 ^ 64) ?_ fun l hl => ?_
    · exact forList_post (fun _ (l : List α) => l.length < 2 ^ 64) _ _ hi.len64 fun x xs s _ => Post.any fun r1 => Post.any fun t => half _ _ _ _
    · intro b hb
      unfold ImageBuffer.fromRaw at hb
      split at hb
      · rename_i hf
        cases hb
        have := ((ImageBuffer.checkImageFits_iff hc hi.w32).1 hf).2
        exact ⟨⟨hi.w32, hi.h32, hl, this⟩, rfl, rfl⟩
      · cases hb

end Verif
