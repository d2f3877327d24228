import Verif.Model.Ico
import Verif.Spec.Ico
import Verif.Props.BmpTotal
import Verif.Props.BmpTrunc

/-!
# ICO: lemmas
-/

namespace Verif
namespace Bmp

theorem rleLoopEnd_fst (r4 : Bool) (pal : List Rgb) (ch : Nat) : ∀ (fuel : Nat) (st : Rle) (s : List UInt8),
    rleLoop r4 pal ch fuel st s = (do let (b, _) ← rleLoopEnd r4 pal ch fuel st s; Except.ok b) := by
  intro fuel
  induction fuel with
  | zero => intro st s; rfl
  | succ fuel ih =>
    intro st s
    rw [rleLoop, rleLoopEnd, bind_assoc]
    congr 1
    funext ⟨insn, s1⟩
    dsimp only
    cases insn with
    | endOfFile => rfl
    | endOfRow =>
      obtain ⟨rows, cur, left, x⟩ := st
      cases left with
      | nil => rfl
      | cons row left => dsimp only; rw [bind_assoc]; congr 1; funext it; exact ih _ _
    | delta dx dy => dsimp only; rw [bind_assoc]; congr 1; funext it; exact ih _ _
    | absolute n b =>
      dsimp only; rw [bind_assoc]; congr 1; funext r
      split
      · exact ih _ _
      · rfl
    | run n b =>
      dsimp only; rw [bind_assoc]; congr 1; funext r
      split
      · exact ih _ _
      · rfl

/-- `readImageDataEnd` gives the pixels that `readImageData` gives. -/
theorem readImageDataEnd_fst (d : Decoder) (buf : List UInt8) :
    readImageData d buf = (do let (b, _) ← readImageDataEnd d buf; Except.ok b) := by
  have hrle : ∀ r4, readRle d r4 buf = (do let (b, _) ← readRleEnd d r4 buf; Except.ok b) := by
    intro r4
    unfold readRle readRleEnd
    dsimp only
    rw [bind_assoc]
    congr 1; funext pal
    rw [bind_assoc]
    congr 1; funext _
    generalize (if d.topDown = true then chunksOf (d.width * d.channels) buf else (chunksOf (d.width * d.channels) buf).reverse) = l
    cases l with
    | nil => rfl
    | cons row left =>
      dsimp only
      rw [bind_assoc]
      congr 1; funext it
      rw [rleLoopEnd_fst, bind_assoc, bind_assoc]
      rfl
  have hpal : readPalettized d buf = (do let (b, _) ← readPalettizedEnd d buf; Except.ok b) := by
    unfold readPalettized readPalettizedEnd
    dsimp only
    rw [bind_assoc]
  unfold readImageData readImageDataEnd
  cases d.imageType with
  | Palette => exact hpal
  | RGB16 => rfl
  | RGB24 => rfl
  | RGB32 => rfl
  | RGBA32 => rfl
  | RLE8 => exact hrle _
  | RLE4 => exact hrle _
  | Bitfields16 =>
    dsimp only
    cases d.bitfields with
    | none => rfl
    | some f => rfl
  | Bitfields32 =>
    dsimp only
    cases d.bitfields with
    | none => rfl
    | some f =>
      dsimp only
      by_cases h1 : f = mask888
      · rw [if_pos h1, if_pos h1]; rfl
      · rw [if_neg h1, if_neg h1]
        by_cases h2 : f = mask8888
        · rw [if_pos h2, if_pos h2]; rfl
        · rw [if_neg h2, if_neg h2]; rfl

/-! ## A longer file: what is read stays the same, and the rest has the same bytes more -/

/-- Same value, and the rest has `t` more at its end. -/
def LongerBy (t : List UInt8) {α : Type} (a b : α × List UInt8) : Prop := a.1 = b.1 ∧ b.2 = a.2 ++ t

theorem readExact_by {n : Nat} {s t : List UInt8} : Sim (LongerBy t) (readExact n s) (readExact n (s ++ t)) := by
  unfold readExact
  split
  · rename_i hn
    rw [if_pos (by rw [List.length_append]; omega)]
    refine .ok ⟨?_, ?_⟩
    · dsimp only; rw [List.take_append_of_le_length hn]
    · dsimp only; rw [List.drop_append_of_le_length hn]
  · exact .errR

theorem readU8_by {s t : List UInt8} : Sim (LongerBy t) (readU8 s) (readU8 (s ++ t)) := by
  cases s with
  | nil => exact .errR
  | cons a s => exact .ok ⟨rfl, rfl⟩

theorem rowLoop_by {t : List UInt8} {f : List UInt8 → List UInt8 → R (List UInt8 × List UInt8)}
    (hf : ∀ row s, Sim (LongerBy t) (f row s) (f row (s ++ t)))
    (rows : List (List UInt8)) (s : List UInt8) : Sim (LongerBy t) (rowLoop rows f s) (rowLoop rows f (s ++ t)) := by
  unfold rowLoop
  refine forList_sim (Q := LongerBy t) rows _ _ ⟨rfl, rfl⟩ ?_
  rintro row ⟨a, s⟩ ⟨_, _⟩ ⟨rfl, rfl⟩
  refine (hf row s).bind ?_
  rintro ⟨r, s1⟩ ⟨_, _⟩ ⟨rfl, rfl⟩
  exact .ok ⟨rfl, rfl⟩

theorem withRows_by {t : List UInt8} {f : List UInt8 → List UInt8 → R (List UInt8 × List UInt8)}
    (hf : ∀ row s, Sim (LongerBy t) (f row s) (f row (s ++ t)))
    {buf : List UInt8} {w h c : Nat} {td : Bool} {s : List UInt8} :
    Sim (LongerBy t) (withRows buf w h c td f s) (withRows buf w h c td f (s ++ t)) := by
  unfold withRows
  refine Sim.same fun _ => Sim.same fun _ => Sim.same fun _ => Sim.same fun _ => ?_
  dsimp only
  split
  · refine (rowLoop_by hf _ s).bind ?_
    rintro ⟨r, s1⟩ ⟨_, _⟩ ⟨rfl, rfl⟩
    exact .ok ⟨rfl, rfl⟩
  · refine (rowLoop_by hf _ s).bind ?_
    rintro ⟨r, s1⟩ ⟨_, _⟩ ⟨rfl, rfl⟩
    exact .ok ⟨rfl, rfl⟩

theorem pixelLoop_by {t : List UInt8} {n : Nat} {f : List UInt8 → List UInt8 → R (List UInt8)} (ps : List (List UInt8)) {s : List UInt8} :
    Sim (LongerBy t) (pixelLoop n f ps s) (pixelLoop n f ps (s ++ t)) := by
  unfold pixelLoop
  refine forList_sim (Q := LongerBy t) ps _ _ ⟨rfl, rfl⟩ ?_
  rintro row ⟨a, s⟩ ⟨_, _⟩ ⟨rfl, rfl⟩
  refine readExact_by.bind ?_
  rintro ⟨r, s1⟩ ⟨_, _⟩ ⟨rfl, rfl⟩
  exact Sim.same fun _ => .ok ⟨rfl, rfl⟩

theorem readInsn_by {t : List UInt8} {r4 : Bool} {s : List UInt8} : Sim (LongerBy t) (readInsn r4 s) (readInsn r4 (s ++ t)) := by
  unfold readInsn
  refine readU8_by.bind ?_
  rintro ⟨ctl, s1⟩ ⟨_, _⟩ ⟨rfl, rfl⟩
  dsimp only
  split
  · refine readU8_by.bind ?_
    rintro ⟨op, s2⟩ ⟨_, _⟩ ⟨rfl, rfl⟩
    dsimp only
    split
    · exact .ok ⟨rfl, rfl⟩
    split
    · exact .ok ⟨rfl, rfl⟩
    split
    · refine readU8_by.bind ?_
      rintro ⟨x, s3⟩ ⟨_, _⟩ ⟨rfl, rfl⟩
      refine readU8_by.bind ?_
      rintro ⟨y, s4⟩ ⟨_, _⟩ ⟨rfl, rfl⟩
      exact .ok ⟨rfl, rfl⟩
    · refine readExact_by.bind ?_
      rintro ⟨x, s3⟩ ⟨_, _⟩ ⟨rfl, rfl⟩
      exact .ok ⟨rfl, rfl⟩
  · refine readExact_by.bind ?_
    rintro ⟨x, s3⟩ ⟨_, _⟩ ⟨rfl, rfl⟩
    exact .ok ⟨rfl, rfl⟩

theorem rleLoopEnd_by {t : List UInt8} {r4 : Bool} {pal : List Rgb} {ch : Nat} : ∀ (fuel fuel' : Nat) (st : Rle) {s : List UInt8}, fuel ≤ fuel' →
    Sim (LongerBy t) (rleLoopEnd r4 pal ch fuel st s) (rleLoopEnd r4 pal ch fuel' st (s ++ t)) := by
  intro fuel
  induction fuel with
  | zero => intro fuel' st s _; exact .panicR
  | succ fuel ih =>
    intro fuel' st s hf
    obtain ⟨fuel', rfl⟩ : ∃ k, fuel' = k + 1 := ⟨fuel' - 1, by omega⟩
    rw [rleLoopEnd, rleLoopEnd]
    refine readInsn_by.bind ?_
    rintro ⟨insn, s1⟩ ⟨_, _⟩ ⟨rfl, rfl⟩
    dsimp only
    cases insn with
    | endOfFile => exact .ok ⟨rfl, rfl⟩
    | endOfRow =>
      dsimp only
      split
      · exact .ok ⟨rfl, rfl⟩
      · exact Sim.same fun _ => ih _ _ (by omega)
    | delta dx dy => exact Sim.same fun _ => ih _ _ (by omega)
    | absolute n b =>
      refine Sim.same fun r => ?_
      split
      · exact ih _ _ (by omega)
      · exact .errR
    | run n b =>
      refine Sim.same fun r => ?_
      split
      · exact ih _ _ (by omega)
      · exact .errR

theorem readImageDataEnd_by {d : Decoder} {r : Cursor} {t : List UInt8}
    (hs : r.bytes.drop d.dataOffset = d.reader.bytes.drop d.dataOffset ++ t) (buf : List UInt8) :
    Sim (LongerBy t) (readImageDataEnd d buf) (readImageDataEnd { d with reader := r } buf) := by
  have hfull : ∀ fmt, Sim (LongerBy t) (readFullEnd d fmt buf) (readFullEnd { d with reader := r } fmt buf) := by
    intro fmt
    unfold readFullEnd
    dsimp only
    rw [hs]
    refine withRows_by (fun row s => ?_)
    refine Sim.same fun it => ?_
    refine (pixelLoop_by _).bind ?_
    rintro ⟨r, s1⟩ ⟨_, _⟩ ⟨rfl, rfl⟩
    refine readExact_by.bind ?_
    rintro ⟨p, s2⟩ ⟨_, _⟩ ⟨rfl, rfl⟩
    exact .ok ⟨rfl, rfl⟩
  have h16 : ∀ f, Sim (LongerBy t) (read16End d f buf) (read16End { d with reader := r } f buf) := by
    intro f
    unfold read16End
    dsimp only
    rw [hs]
    refine withRows_by (fun row s => ?_)
    refine Sim.same fun it => ?_
    refine (pixelLoop_by _).bind ?_
    rintro ⟨r, s1⟩ ⟨_, _⟩ ⟨rfl, rfl⟩
    refine readExact_by.bind ?_
    rintro ⟨p, s2⟩ ⟨_, _⟩ ⟨rfl, rfl⟩
    exact .ok ⟨rfl, rfl⟩
  have h32 : ∀ f, Sim (LongerBy t) (read32End d f buf) (read32End { d with reader := r } f buf) := by
    intro f
    unfold read32End
    dsimp only
    rw [hs]
    refine withRows_by (fun row s => ?_)
    exact Sim.same fun it => pixelLoop_by _
  have hpal : Sim (LongerBy t) (readPalettizedEnd d buf) (readPalettizedEnd { d with reader := r } buf) := by
    unfold readPalettizedEnd
    refine Sim.same fun pal => ?_
    dsimp only
    rw [hs]
    refine withRows_by (fun row s => ?_)
    unfold paletteRow
    refine readExact_by.bind ?_
    rintro ⟨p, s2⟩ ⟨_, _⟩ ⟨rfl, rfl⟩
    dsimp only
    split
    · exact Sim.same fun _ => Sim.same fun _ => .ok ⟨rfl, rfl⟩
    · exact Sim.same fun _ => Sim.same fun _ => .ok ⟨rfl, rfl⟩
  have hrle : ∀ r4, Sim (LongerBy t) (readRleEnd d r4 buf) (readRleEnd { d with reader := r } r4 buf) := by
    intro r4
    unfold readRleEnd
    refine Sim.same fun pal => Sim.same fun _ => ?_
    dsimp only
    rw [hs]
    change Sim (LongerBy t) (match (if d.topDown = true then chunksOf (d.width * d.channels) buf else (chunksOf (d.width * d.channels) buf).reverse) with
      | [] => _ | row :: left => _) (match (if d.topDown = true then chunksOf (d.width * d.channels) buf else (chunksOf (d.width * d.channels) buf).reverse) with
      | [] => _ | row :: left => _)
    split
    · exact .ok ⟨rfl, rfl⟩
    · refine Sim.same fun it => ?_
      refine (rleLoopEnd_by _ _ _ (by rw [List.length_append]; omega)).bind ?_
      rintro ⟨o, s1⟩ ⟨_, _⟩ ⟨rfl, rfl⟩
      exact .ok ⟨rfl, rfl⟩
  unfold readImageDataEnd
  dsimp only
  cases d.imageType with
  | Palette => exact hpal
  | RGB16 => exact h16 _
  | RGB24 => exact hfull _
  | RGB32 => exact hfull _
  | RGBA32 => exact hfull _
  | RLE8 => exact hrle _
  | RLE4 => exact hrle _
  | Bitfields16 =>
    dsimp only
    split
    · exact h16 _
    · exact .errR
  | Bitfields32 =>
    dsimp only
    split
    · split
      · exact hfull _
      · split
        · exact hfull _
        · exact h32 _
    · exact .errR

/-! ## The rest of the reader is a suffix -/

theorem readExact_suffix (n : Nat) (s : List UInt8) : Post (fun r => r.2 <:+ s) (readExact n s) := by
  unfold readExact
  split
  · exact .ok (List.drop_suffix _ _)
  · exact .errR

theorem readU8_suffix (s : List UInt8) : Post (fun r => r.2 <:+ s) (readU8 s) := by
  cases s with
  | nil => exact .errR
  | cons a s => exact .ok (List.suffix_cons a s)

theorem rowLoop_suffix {f : List UInt8 → List UInt8 → R (List UInt8 × List UInt8)} (hf : ∀ row s, Post (fun r => r.2 <:+ s) (f row s))
    (rows : List (List UInt8)) (s : List UInt8) : Post (fun r => r.2 <:+ s) (rowLoop rows f s) := by
  unfold rowLoop
  refine forList_post (fun _ (st : List (List UInt8) × List UInt8) => st.2 <:+ s) _ _ (List.suffix_refl s) ?_
  rintro row _ ⟨a, t⟩ ht
  refine (hf row t).bind ?_
  rintro ⟨o, t'⟩ h'
  exact .ok (h'.trans ht)

theorem withRows_suffix {f : List UInt8 → List UInt8 → R (List UInt8 × List UInt8)} (hf : ∀ row s, Post (fun r => r.2 <:+ s) (f row s))
    (buf : List UInt8) (w h c : Nat) (td : Bool) (s : List UInt8) : Post (fun r => r.2 <:+ s) (withRows buf w h c td f s) := by
  unfold withRows
  refine Post.any fun _ => Post.any fun _ => Post.any fun _ => Post.any fun _ => ?_
  dsimp only
  split
  · exact (rowLoop_suffix hf _ s).bind fun ⟨r, s1⟩ h1 => .ok h1
  · exact (rowLoop_suffix hf _ s).bind fun ⟨r, s1⟩ h1 => .ok h1

theorem pixelLoop_suffix {n : Nat} {f : List UInt8 → List UInt8 → R (List UInt8)} (ps : List (List UInt8)) (s : List UInt8) :
    Post (fun r => r.2 <:+ s) (pixelLoop n f ps s) := by
  unfold pixelLoop
  refine forList_post (fun _ (st : List UInt8 × List UInt8) => st.2 <:+ s) _ _ (List.suffix_refl s) ?_
  rintro row _ ⟨a, t⟩ ht
  refine (readExact_suffix n t).bind ?_
  rintro ⟨o, t'⟩ h'
  exact Post.any fun _ => .ok (List.IsSuffix.trans h' ht)

theorem readInsn_suffix (r4 : Bool) (s : List UInt8) : Post (fun r => r.2 <:+ s) (readInsn r4 s) := by
  unfold readInsn
  refine (readU8_suffix s).bind ?_
  rintro ⟨ctl, s1⟩ h1
  dsimp only at h1 ⊢
  split
  · refine (readU8_suffix s1).bind ?_
    rintro ⟨op, s2⟩ h2
    dsimp only at h2 ⊢
    split
    · exact .ok (h2.trans h1)
    split
    · exact .ok (h2.trans h1)
    split
    · refine (readU8_suffix s2).bind ?_
      rintro ⟨x, s3⟩ h3
      refine (readU8_suffix s3).bind ?_
      rintro ⟨y, s4⟩ h4
      exact .ok (List.IsSuffix.trans h4 (List.IsSuffix.trans h3 (h2.trans h1)))
    · refine (readExact_suffix _ s2).bind ?_
      rintro ⟨x, s3⟩ h3
      exact .ok (List.IsSuffix.trans h3 (h2.trans h1))
  · refine (readExact_suffix _ s1).bind ?_
    rintro ⟨x, s3⟩ h3
    exact .ok (List.IsSuffix.trans h3 h1)

theorem rleLoopEnd_suffix (r4 : Bool) (pal : List Rgb) (ch : Nat) : ∀ (fuel : Nat) (st : Rle) (s : List UInt8),
    Post (fun r => r.2 <:+ s) (rleLoopEnd r4 pal ch fuel st s) := by
  intro fuel
  induction fuel with
  | zero => intro st s; exact .panicR
  | succ fuel ih =>
    intro st s
    rw [rleLoopEnd]
    refine (readInsn_suffix r4 s).bind ?_
    rintro ⟨insn, s1⟩ h1
    dsimp only at h1 ⊢
    have ih' : ∀ st, Post (fun r => r.2 <:+ s) (rleLoopEnd r4 pal ch fuel st s1) := fun st a ha => (ih st s1 a ha).trans h1
    cases insn with
    | endOfFile => exact .ok h1
    | endOfRow =>
      dsimp only
      split
      · exact .ok h1
      · exact Post.any fun _ => ih' _
    | delta dx dy => exact Post.any fun _ => ih' _
    | absolute n b =>
      refine Post.any fun r => ?_
      split
      · exact ih' _
      · exact .errR
    | run n b =>
      refine Post.any fun r => ?_
      split
      · exact ih' _
      · exact .errR

theorem readImageDataEnd_suffix (d : Decoder) (buf : List UInt8) :
    Post (fun r => r.2 <:+ d.reader.bytes.drop d.dataOffset) (readImageDataEnd d buf) := by
  have hfull : ∀ fmt, Post (fun r => r.2 <:+ d.reader.bytes.drop d.dataOffset) (readFullEnd d fmt buf) := by
    intro fmt
    unfold readFullEnd
    refine withRows_suffix (fun row s => ?_) _ _ _ _ _ _
    refine Post.any fun it => ?_
    refine (pixelLoop_suffix _ s).bind ?_
    rintro ⟨r, s1⟩ h1
    refine (readExact_suffix _ s1).bind ?_
    rintro ⟨p, s2⟩ h2
    exact .ok (List.IsSuffix.trans h2 h1)
  have h16 : ∀ f, Post (fun r => r.2 <:+ d.reader.bytes.drop d.dataOffset) (read16End d f buf) := by
    intro f
    unfold read16End
    refine withRows_suffix (fun row s => ?_) _ _ _ _ _ _
    refine Post.any fun it => ?_
    refine (pixelLoop_suffix _ s).bind ?_
    rintro ⟨r, s1⟩ h1
    refine (readExact_suffix _ s1).bind ?_
    rintro ⟨p, s2⟩ h2
    exact .ok (List.IsSuffix.trans h2 h1)
  have h32 : ∀ f, Post (fun r => r.2 <:+ d.reader.bytes.drop d.dataOffset) (read32End d f buf) := by
    intro f
    unfold read32End
    refine withRows_suffix (fun row s => ?_) _ _ _ _ _ _
    exact Post.any fun it => pixelLoop_suffix _ s
  have hpal : Post (fun r => r.2 <:+ d.reader.bytes.drop d.dataOffset) (readPalettizedEnd d buf) := by
    unfold readPalettizedEnd
    refine Post.any fun pal => ?_
    refine withRows_suffix (fun row s => ?_) _ _ _ _ _ _
    unfold paletteRow
    refine (readExact_suffix _ s).bind ?_
    rintro ⟨p, s2⟩ h2
    dsimp only
    split
    · exact Post.any fun _ => Post.any fun _ => .ok h2
    · exact Post.any fun _ => Post.any fun _ => .ok h2
  have hrle : ∀ r4, Post (fun r => r.2 <:+ d.reader.bytes.drop d.dataOffset) (readRleEnd d r4 buf) := by
    intro r4
    unfold readRleEnd
    refine Post.any fun pal => Post.any fun _ => ?_
    dsimp only
    split
    · exact .ok (List.suffix_refl _)
    · refine Post.any fun it => ?_
      refine (rleLoopEnd_suffix _ _ _ _ _ _).bind ?_
      rintro ⟨o, s1⟩ h1
      exact .ok h1
  unfold readImageDataEnd
  cases d.imageType with
  | Palette => exact hpal
  | RGB16 => exact h16 _
  | RGB24 => exact hfull _
  | RGB32 => exact hfull _
  | RGBA32 => exact hfull _
  | RLE8 => exact hrle _
  | RLE4 => exact hrle _
  | Bitfields16 =>
    dsimp only
    split
    · exact h16 _
    · exact .errR
  | Bitfields32 =>
    dsimp only
    split
    · split
      · exact hfull _
      · split
        · exact hfull _
        · exact h32 _
    · exact .errR

/-! ## How many bytes the pixels take -/

/-- The bytes of a padded row. -/
def Decoder.rowBytes (d : Decoder) : Nat := (d.bitCount * d.width + 31) / 32 * 4

theorem readImageDataEnd_rows {d : Decoder} (hg : d.Good) (hb : Bits d.imageType d.bitCount)
    (hty : d.imageType ≠ .RLE4 ∧ d.imageType ≠ .RLE8) (buf : List UInt8) :
    Post (fun r => r.2.length + d.height * d.rowBytes = (d.reader.bytes.drop d.dataOffset).length) (readImageDataEnd d buf) := by
  have hch := channels_eq hg.indexed
  have hcp : 0 < d.channels := by rcases hch.2.1 with h | h <;> omega
  have pix : ∀ row : List UInt8, row.length = d.width * d.channels → ∀ it, pixels d.channels row = .ok it → it.rest.length = d.width := by
    intro row hr it hit
    obtain ⟨it', e, h1, -, h3⟩ := pixels_ok hcp hr
    rw [e] at hit
    cases hit
    rw [h3]
    exact (rows_lengths hcp hr).2
  have full : ∀ fmt, (fmt = .RGB24 → d.bitCount = 24) → (fmt ≠ .RGB24 → d.bitCount = 32) →
      Post (fun r => r.2.length + d.height * d.rowBytes = (d.reader.bytes.drop d.dataOffset).length) (readFullEnd d fmt buf) := by
    intro fmt f1 f2
    unfold readFullEnd
    refine withRows_post (fun row s hr => ?_) _ _ _
    intro o ho
    rw [bind_eq_ok] at ho
    obtain ⟨it, hit, ho⟩ := ho
    have hlen := pix row hr it hit
    refine Post.bind (P := fun o => o.2.length + d.rowBytes = s.length) (pixelLoop_post (n := fmt.size) _ s) ?_ o ho
    rintro ⟨row', s1⟩ h1
    refine Post.bind (readExact_post _ s1) ?_
    rintro ⟨_, s2⟩ ⟨-, h2⟩
    refine .ok ?_
    dsimp only at h1 h2 ⊢
    rw [hlen] at h1
    unfold Decoder.rowBytes
    by_cases hfmt : fmt = .RGB24
    · rw [if_pos hfmt] at h2
      rw [f1 hfmt]
      rw [hfmt] at h1
      simp only [FullFormat.size] at h1
      omega
    · rw [if_neg hfmt] at h2
      rw [f2 hfmt]
      have : fmt.size = 4 := by cases fmt <;> first | rfl | exact absurd rfl hfmt
      rw [this] at h1
      omega
  have r16 : ∀ f, d.bitCount = 16 →
      Post (fun r => r.2.length + d.height * d.rowBytes = (d.reader.bytes.drop d.dataOffset).length) (read16End d f buf) := by
    intro f f1
    unfold read16End
    refine withRows_post (fun row s hr => ?_) _ _ _
    intro o ho
    rw [bind_eq_ok] at ho
    obtain ⟨it, hit, ho⟩ := ho
    have hlen := pix row hr it hit
    refine Post.bind (P := fun o => o.2.length + d.rowBytes = s.length) (pixelLoop_post (n := 2) _ s) ?_ o ho
    rintro ⟨row', s1⟩ h1
    refine Post.bind (readExact_post _ s1) ?_
    rintro ⟨_, s2⟩ ⟨-, h2⟩
    refine .ok ?_
    dsimp only at h1 h2 ⊢
    unfold Decoder.rowBytes
    rw [hlen] at h1
    rw [f1]
    omega
  have r32 : ∀ f, d.bitCount = 32 →
      Post (fun r => r.2.length + d.height * d.rowBytes = (d.reader.bytes.drop d.dataOffset).length) (read32End d f buf) := by
    intro f f1
    unfold read32End
    refine withRows_post (fun row s hr => ?_) _ _ _
    intro o ho
    rw [bind_eq_ok] at ho
    obtain ⟨it, hit, ho⟩ := ho
    have hlen := pix row hr it hit
    have h1 := pixelLoop_post (n := 4) _ s o ho
    unfold Decoder.rowBytes
    rw [hlen] at h1
    rw [f1]
    omega
  have rp : Post (fun r => r.2.length + d.height * d.rowBytes = (d.reader.bytes.drop d.dataOffset).length) (readPalettizedEnd d buf) := by
    unfold readPalettizedEnd
    refine Post.any fun pal => ?_
    refine withRows_post (fun row s hr => ?_) _ _ _
    unfold paletteRow
    refine (readExact_post _ s).bind ?_
    rintro ⟨p, s2⟩ ⟨-, h2⟩
    dsimp only at h2 ⊢
    split
    · exact Post.any fun _ => Post.any fun _ => .ok h2
    · exact Post.any fun _ => Post.any fun _ => .ok h2
  obtain ⟨b1, b2, b3⟩ := hb
  unfold readImageDataEnd
  cases hi : d.imageType with
  | Palette => exact rp
  | RGB16 => exact r16 _ (b1 (.inl hi))
  | RGB24 => exact full _ (fun _ => b2 hi) (fun h => absurd rfl h)
  | RGB32 => exact full _ (fun h => by cases h) (fun _ => b3 (.inl hi))
  | RGBA32 => exact full _ (fun h => by cases h) (fun _ => b3 (.inr (.inl hi)))
  | RLE8 => exact absurd hi hty.2
  | RLE4 => exact absurd hi hty.1
  | Bitfields16 =>
    dsimp only
    split
    · exact r16 _ (b1 (.inr hi))
    · exact .errR
  | Bitfields32 =>
    have h32 := b3 (.inr (.inr hi))
    dsimp only
    split
    · split
      · exact full _ (fun h => by cases h) (fun _ => h32)
      · split
        · exact full _ (fun h => by cases h) (fun _ => h32)
        · exact r32 _ h32
    · exact .errR

/-! ## Bottom-up images have at most 65535 rows -/

theorem readMetadata_height (nf al : Bool) (c : Cursor) : Post (fun d => d.topDown = false → d.height ≤ 65535) (readMetadata nf al c) := by
  unfold readMetadata
  refine Post.any fun ⟨off, c1⟩ => ?_
  dsimp only
  refine Post.any fun ⟨size, c2⟩ => ?_
  dsimp only
  refine Post.any fun ht => ?_
  refine Post.bind (Q := fun r => r.1.topDown = false → r.1.height ≤ 65535) ?_ ?_
  · have h1 : Post (fun r => r.1.topDown = false → r.1.height ≤ 65535) (readInfoHeader al c2) := by
      unfold readInfoHeader
      refine Post.any fun ⟨w, _⟩ => Post.any fun ⟨h, _⟩ => ?_
      dsimp only
      split
      · exact .errR
      split
      · exact .errR
      split
      · exact .errR
      rename_i _ n1 _
      refine Post.any fun _ => Post.any fun ⟨_, _⟩ => ?_
      dsimp only
      split
      · exact .errR
      refine Post.any fun ⟨bc, _⟩ => Post.any fun ⟨comp, _⟩ => ?_
      dsimp only
      split
      · exact .errR
      refine Post.any fun ty => ?_
      refine Post.any fun ⟨_, _⟩ => Post.any fun ⟨_, _⟩ => Post.any fun ⟨_, _⟩ => Post.any fun ⟨_, _⟩ => Post.any fun ⟨_, _⟩ => .ok ?_
      dsimp only
      intro ht
      have := of_decide_eq_false ht
      omega
    have h2 : Post (fun r => r.1.topDown = false → r.1.height ≤ 65535) (readCoreHeader al c2) := by
      unfold readCoreHeader
      refine Post.any fun ⟨w, c3⟩ => ?_
      refine Post.bind (Q := fun r => r.1 < 256 ^ 2) ?_ ?_
      · intro a ha
        have := (readU_total 2 c3).of_ok ha
        exact this.1
      rintro ⟨h, _⟩ hh
      refine Post.any fun _ => Post.any fun ⟨_, _⟩ => ?_
      dsimp only
      split
      · exact .errR
      refine Post.any fun ⟨bc, _⟩ => Post.any fun _ => .ok ?_
      dsimp only at hh ⊢
      omega
    cases ht <;> first | exact h2 | exact h1
  · rintro ⟨info, c3⟩ hb
    dsimp only at hb ⊢
    exact Post.any fun ⟨_, _, _⟩ => Post.any fun ⟨_, _⟩ => Post.any fun ⟨_, _⟩ => .ok hb

end Bmp

namespace Ico

/-! ## The mask -/

theorem length_cleared (w : Nat) (f : Nat → Nat → Bool) (px : List UInt8) : (cleared w f px).length = px.length := by
  unfold cleared; rw [List.length_mapIdx]

theorem getElem_cleared {w : Nat} {f : Nat → Nat → Bool} {px : List UInt8} {i : Nat} (h : i < (cleared w f px).length) :
    (cleared w f px)[i] = if i % 4 = 3 ∧ f (i / 4 % w) (i / 4 / w) = true then 0 else px[i]'(by rwa [length_cleared] at h) := by
  simp [cleared]

theorem cleared_congr {w h : Nat} {px : List UInt8} (hl : px.length = w * h * 4) {f g : Nat → Nat → Bool}
    (hfg : ∀ x y, x < w → y < h → f x y = g x y) : cleared w f px = cleared w g px := by
  unfold cleared
  apply List.ext_getElem
  · simp
  intro i h1 h2
  rw [List.length_mapIdx, hl] at h1
  rw [List.getElem_mapIdx, List.getElem_mapIdx]
  have hw : 0 < w := by
    rcases Nat.eq_zero_or_pos w with h0 | h0
    · subst h0; simp at h1
    · exact h0
  have : i / 4 < w * h := by omega
  rw [hfg _ _ (Nat.mod_lt _ hw) (Nat.div_lt_of_lt_mul this)]

theorem cleared_none (w : Nat) (px : List UInt8) : cleared w (fun _ _ => false) px = px := by
  unfold cleared
  apply List.ext_getElem
  · simp
  intro i h1 h2
  rw [List.getElem_mapIdx]
  simp

theorem setAt_cleared {w h x y : Nat} {px : List UInt8} (hl : px.length = w * h * 4) (f : Nat → Nat → Bool) (hx : x < w) (hy : y < h) :
    setAt (cleared w f px) ((y * w + x) * 4 + 3) 0 = .ok (cleared w (fun x' y' => f x' y' || (decide (x' = x) && decide (y' = y))) px) := by
  have hlt : y * w + x < w * h := by
    have : (y + 1) * w ≤ h * w := Nat.mul_le_mul_right _ hy
    rw [Nat.add_mul, Nat.one_mul, Nat.mul_comm h] at this
    omega
  unfold setAt
  rw [length_cleared, if_pos (by omega)]
  congr 1
  apply List.ext_getElem
  · simp [length_cleared]
  intro i h1 h2
  rw [List.length_set, length_cleared, hl] at h1
  rw [List.getElem_set, getElem_cleared, getElem_cleared]
  by_cases hi : (y * w + x) * 4 + 3 = i
  · rw [if_pos hi]
    subst hi
    have e1 : (y * w + x) % w = x := by rw [Nat.mul_add_mod', Nat.mod_eq_of_lt hx]
    have e2 : (y * w + x) / w = y := by
      rw [Nat.add_comm, Nat.mul_comm, Nat.add_mul_div_left _ _ (by omega), Nat.div_eq_of_lt hx, Nat.zero_add]
    rw [if_pos]
    refine ⟨by omega, ?_⟩
    rw [show ((y * w + x) * 4 + 3) / 4 = y * w + x by omega, e1, e2]
    simp
  · rw [if_neg hi]
    by_cases h3 : i % 4 = 3
    · have : ¬ (i / 4 % w = x ∧ i / 4 / w = y) := by
        rintro ⟨e1, e2⟩
        have := Nat.div_add_mod (i / 4) w
        rw [e1, e2, Nat.mul_comm] at this
        omega
      have e : (decide (i / 4 % w = x) && decide (i / 4 / w = y)) = false := by
        rw [← Bool.decide_and]; exact decide_eq_false this
      rw [e, Bool.or_false]
    · simp [h3]

theorem maskByte_eq {w h y : Nat} (hy : y < h) (hwh : w * h ≤ 2 ^ 32) {px : List UInt8} (hl : px.length = w * h * 4)
    (f : Nat → Nat → Bool) (byte x0 : Nat) (hx : x0 ≤ w) :
    maskByte w h y byte (x0, cleared w f px) = .ok (min (x0 + 8) w, cleared w (fun c r => f c r ||
      (decide (r = h - 1 - y) && decide (x0 ≤ c ∧ c < x0 + 8) && byte.testBit (7 - (c - x0)))) px) := by
  unfold maskByte
  obtain ⟨⟨x, b⟩, e, hinv⟩ := forRange_inv (n := 8) (f := fun i (st : Nat × List UInt8) =>
      if st.1 ≥ w then .ok st
      else do
        let buf ← (if byte.testBit (7 - i) then do
            let h ← subC h y
            let h ← subC h 1
            let a ← mulC 32 h w
            let b ← addC 32 a st.1
            setAt st.2 (b * 4 + 3) 0
          else .ok st.2)
        .ok (st.1 + 1, buf))
    (s := (x0, cleared w f px))
    (fun i st => st.1 = min (x0 + i) w ∧ st.2 = cleared w (fun c r => f c r ||
      (decide (r = h - 1 - y) && decide (x0 ≤ c ∧ c < x0 + i) && byte.testBit (7 - (c - x0)))) px)
    ⟨by dsimp only; omega, by
      dsimp only
      apply cleared_congr hl
      intro c r _ _
      have : decide (x0 ≤ c ∧ c < x0 + 0) = false := decide_eq_false (by omega)
      rw [this]; simp⟩ (by
      intro i hi st hst
      obtain ⟨x, b⟩ := st
      obtain ⟨hx1, hb⟩ := hst
      dsimp only at hx1 hb ⊢
      subst hx1 hb
      by_cases hge : x0 + i ≥ w
      · rw [if_pos (by omega)]
        refine ⟨_, rfl, by dsimp only; omega, ?_⟩
        dsimp only
        apply cleared_congr hl
        intro c r hc _
        have : decide (x0 ≤ c ∧ c < x0 + i) = decide (x0 ≤ c ∧ c < x0 + (i + 1)) := decide_eq_decide.2 (by omega)
        rw [this]
      · rw [if_neg (by omega), Nat.min_eq_left (by omega)]
        have split : ∀ c : Nat, byte.testBit (7 - i) = true →
            (decide (x0 ≤ c ∧ c < x0 + i) && byte.testBit (7 - (c - x0)) || decide (c = x0 + i)) =
            (decide (x0 ≤ c ∧ c < x0 + (i + 1)) && byte.testBit (7 - (c - x0))) := by
          intro c hbit
          by_cases hc : c = x0 + i
          · subst hc
            rw [Nat.add_sub_cancel_left, hbit, decide_eq_true (p := x0 ≤ x0 + i ∧ x0 + i < x0 + (i + 1)) (by omega)]
            simp
          · have : decide (x0 ≤ c ∧ c < x0 + i) = decide (x0 ≤ c ∧ c < x0 + (i + 1)) := decide_eq_decide.2 (by omega)
            rw [this, decide_eq_false hc, Bool.or_false]
        by_cases hbit : byte.testBit (7 - i) = true
        · have hlt : (h - y - 1) * w + w ≤ w * h := by
            have : (h - y - 1 + 1) * w ≤ h * w := Nat.mul_le_mul_right _ (by omega)
            rw [Nat.add_mul, Nat.one_mul, Nat.mul_comm h] at this
            exact this
          rw [if_pos hbit]
          have e1 : subC h y = .ok (h - y) := if_pos (by omega)
          have e2 : subC (h - y) 1 = .ok (h - y - 1) := if_pos (by omega)
          have e3 : mulC 32 (h - y - 1) w = .ok ((h - y - 1) * w) := if_pos (by omega)
          have e4 : addC 32 ((h - y - 1) * w) (x0 + i) = .ok ((h - y - 1) * w + (x0 + i)) := if_pos (by omega)
          rw [e1, ok_bind, e2, ok_bind, e3, ok_bind, e4, ok_bind, setAt_cleared hl _ (by omega) (by omega), ok_bind]
          refine ⟨_, rfl, by dsimp only; omega, ?_⟩
          dsimp only
          apply cleared_congr hl
          intro c r hc hr
          have hr' : decide (r = h - y - 1) = decide (r = h - 1 - y) := decide_eq_decide.2 (by omega)
          rw [hr']
          have hs := split c hbit
          cases f c r <;> cases decide (r = h - 1 - y)
          · simp
          · simpa using hs
          · rfl
          · rfl
        · rw [if_neg hbit, ok_bind]
          refine ⟨_, rfl, by dsimp only; omega, ?_⟩
          dsimp only
          apply cleared_congr hl
          intro c r hc hr
          by_cases hc : c = x0 + i
          · subst hc
            rw [Nat.add_sub_cancel_left, Bool.eq_false_iff.2 hbit]
            simp
          · have : decide (x0 ≤ c ∧ c < x0 + i) = decide (x0 ≤ c ∧ c < x0 + (i + 1)) := decide_eq_decide.2 (by omega)
            rw [this])
  rw [e]
  dsimp only at hinv
  rw [hinv.1, hinv.2]

theorem maskRow_eq {w h y : Nat} (hy : y < h) (hwh : w * h ≤ 2 ^ 32) {px : List UInt8} (hl : px.length = w * h * 4)
    (f : Nat → Nat → Bool) (s : List UInt8) {rb : Nat} (hrb : w ≤ 8 * rb) :
    maskRow w h rb y (cleared w f px, s) = if rb ≤ s.length then .ok (cleared w (fun c r => f c r ||
      (decide (r = h - 1 - y) && (s.getD (c / 8) 0).toNat.testBit (7 - c % 8))) px, s.drop rb) else errR .io := by
  have key : ∀ k, forRange k (fun _ (st : Nat × List UInt8 × List UInt8) => do
      let (byte, s) ← readU8 st.2.2
      let (x, buf) ← maskByte w h y byte (st.1, st.2.1)
      Except.ok (x, buf, s)) (0, cleared w f px, s) = if k ≤ s.length then .ok (min (8 * k) w, cleared w (fun c r => f c r ||
      (decide (r = h - 1 - y) && decide (c < 8 * k) && (s.getD (c / 8) 0).toNat.testBit (7 - c % 8))) px, s.drop k) else errR .io := by
    intro k
    induction k with
    | zero =>
      rw [forRange_zero, if_pos (Nat.zero_le _)]
      refine congrArg Except.ok (congr (congrArg Prod.mk (by omega)) (congr (congrArg Prod.mk ?_) rfl))
      apply cleared_congr hl
      intro c r _ _
      simp
    | succ k ih =>
      rw [forRange_succ, ih]
      by_cases hk : k + 1 ≤ s.length
      · rw [if_pos (by omega), if_pos hk, ok_bind]
        dsimp only
        rw [List.drop_eq_getElem_cons (by omega)]
        unfold readU8
        dsimp only
        rw [ok_bind]
        dsimp only
        rw [maskByte_eq hy hwh hl _ _ _ (by omega), ok_bind]
        refine congrArg Except.ok (congr (congrArg Prod.mk (by omega)) (congr (congrArg Prod.mk ?_) rfl))
        · dsimp only
          apply cleared_congr hl
          intro c r hc _
          by_cases h8 : 8 * k ≤ w
          · rw [Nat.min_eq_left h8]
            by_cases hlt : c < 8 * k
            · rw [decide_eq_true hlt, decide_eq_true (p := c < 8 * (k + 1)) (by omega), decide_eq_false (p := 8 * k ≤ c ∧ _) (by omega)]
              simp
            · rw [decide_eq_false hlt]
              by_cases hlt' : c < 8 * k + 8
              · rw [decide_eq_true (p := 8 * k ≤ c ∧ _) (by omega), decide_eq_true (p := c < 8 * (k + 1)) (by omega),
                  show c / 8 = k by omega, show c - 8 * k = c % 8 by omega, List.getD_eq_getElem?_getD,
                  List.getElem?_eq_getElem (by omega)]
                simp
              · rw [decide_eq_false (p := 8 * k ≤ c ∧ _) (by omega), decide_eq_false (p := c < 8 * (k + 1)) (by omega)]
                simp
          · rw [decide_eq_true (p := c < 8 * k) (by omega), decide_eq_true (p := c < 8 * (k + 1)) (by omega), Nat.min_eq_right (by omega),
              decide_eq_false (p := w ≤ c ∧ _) (by omega)]
            simp
      · by_cases hk' : k ≤ s.length
        · rw [if_pos hk', if_neg hk, ok_bind]
          have : s.drop k = [] := List.drop_eq_nil_of_le (by omega)
          dsimp only
          rw [this]
          rfl
        · rw [if_neg hk', if_neg hk]
          rfl
  unfold maskRow
  rw [key]
  split
  · rw [ok_bind]
    dsimp only
    congr 2
    apply cleared_congr hl
    intro c r hc _
    rw [decide_eq_true (p := c < 8 * rb) (by omega)]
    simp
  · rfl

theorem applyMask_eq {w h : Nat} (hwh : w * h ≤ 2 ^ 32) {px : List UInt8} (hl : px.length = w * h * 4) (s : List UInt8) {rb : Nat}
    (hrb : w ≤ 8 * rb) :
    applyMask w h rb px s = if h * rb ≤ s.length then
      .ok (cleared w (fun x y => maskBit s rb x (h - 1 - y)) px, s.drop (h * rb)) else errR .io := by
  have key : ∀ k, k ≤ h → forRange k (fun y st => maskRow w h rb y st) (px, s) = if k * rb ≤ s.length then
      .ok (cleared w (fun x y => decide (h - 1 - y < k) && maskBit s rb x (h - 1 - y)) px, s.drop (k * rb)) else errR .io := by
    intro k
    induction k with
    | zero =>
      intro _
      rw [forRange_zero, if_pos (by omega)]
      simp [cleared_none]
    | succ k ih =>
      intro hk
      rw [forRange_succ, ih (by omega), Nat.add_mul, Nat.one_mul]
      by_cases h1 : k * rb ≤ s.length
      · rw [if_pos h1, ok_bind, maskRow_eq (by omega) hwh hl _ _ hrb, List.length_drop, List.drop_drop]
        by_cases h2 : k * rb + rb ≤ s.length
        · rw [if_pos h2, if_pos (by omega)]
          congr 2
          apply cleared_congr hl
          intro x y hx hy
          by_cases hlt : h - 1 - y < k
          · rw [decide_eq_true hlt, decide_eq_true (p := h - 1 - y < k + 1) (by omega), decide_eq_false (p := y = h - 1 - k) (by omega)]
            simp
          · rw [decide_eq_false hlt]
            by_cases he : h - 1 - y = k
            · rw [decide_eq_true (p := y = h - 1 - k) (by omega), decide_eq_true (p := h - 1 - y < k + 1) (by omega), he]
              unfold maskBit
              simp only [List.getD_eq_getElem?_getD, List.getElem?_drop]
              simp
            · rw [decide_eq_false (p := y = h - 1 - k) (by omega), decide_eq_false (p := h - 1 - y < k + 1) (by omega)]
              simp
        · rw [if_neg h2, if_neg (by omega)]
      · rw [if_neg h1, if_neg (by omega)]
        rfl
  unfold applyMask
  rw [key h (Nat.le_refl h)]
  split
  · congr 2
    apply cleared_congr hl
    intro x y _ hy
    rw [decide_eq_true (p := h - 1 - y < h) (by omega), Bool.true_and]
  · rfl

end Ico
end Verif
