import Verif.Props.HdrTotal

/-!
# HDR: truncated files (C54), and the width at which the encoder and the decoder disagree (C43)
-/

namespace Verif
namespace Hdr

/-! ## A file and a prefix of it -/

/-- Same value, and a rest that is longer by `t`. -/
def LongerBy (t : List UInt8) {α : Type} (a b : α × List UInt8) : Prop := a.1 = b.1 ∧ b.2 = a.2 ++ t

theorem readExact_by {n : Nat} {s t : List UInt8} : Sim (LongerBy t) (readExact n s) (readExact n (s ++ t)) := by
  unfold readExact
  split
  · rename_i hn
    rw [if_pos (by rw [List.length_append]; omega)]
    refine .ok ⟨?_, ?_⟩
    · dsimp only; rw [List.take_append_of_le_length hn]
    · dsimp only; rw [List.drop_append_of_le_length hn]
  · exact .errR

theorem readU8_by {s t : List UInt8} : Sim (LongerBy t) (readU8 s) (readU8 (s ++ t)) := by
  cases s with
  | nil => exact .errR
  | cons a s => exact .ok ⟨rfl, rfl⟩

theorem readLine_prefix (s t : List UInt8) : ∀ acc,
    ((readLine acc s).1 = (readLine acc (s ++ t)).1 ∧ (readLine acc (s ++ t)).2 = (readLine acc s).2 ++ t) ∨
    ((readLine acc s).2 = [] ∧ (readLine acc s).1 ≠ some []) := by
  induction s with
  | nil => intro acc; exact .inr ⟨rfl, by rw [readLine]; split <;> simp [*]⟩
  | cons b s ih =>
    intro acc
    rw [List.cons_append, readLine, readLine]
    split
    · exact .inl ⟨rfl, rfl⟩
    · exact ih _

theorem headerLoop_nil (T : Text) (strict : Bool) (fuel : Nat) (m : Meta) :
    Post (fun _ => False) (headerLoop T strict fuel m []) := by
  cases fuel with
  | zero => exact .panicR
  | succ fuel => exact .errR

theorem Post.false_sim {α β : Type} {Q : α → β → Prop} {x : R α} {y : R β} (h : Post (fun _ => False) x) : Sim Q x y :=
  fun a ha => (h a ha).elim

theorem Post.bind_false {α β : Type} {x : R α} {f : α → R β} (h : Post (fun _ => False) x) : Post (fun _ => False) (x >>= f) :=
  h.bind fun _ ha => ha.elim

theorem headerLoop_sim (T : Text) (strict : Bool) (t : List UInt8) : ∀ (fuel fuel' : Nat) (m : Meta) (s : List UInt8), fuel ≤ fuel' →
    Sim (LongerBy t) (headerLoop T strict fuel m s) (headerLoop T strict fuel' m (s ++ t)) := by
  intro fuel
  induction fuel with
  | zero => intro fuel' m s _; exact .panicR
  | succ fuel ih =>
    intro fuel' m s hf
    match fuel', hf with
    | fuel' + 1, hf =>
      rcases readLine_prefix s t [] with ⟨h1, h2⟩ | ⟨h0, h1⟩
      · rw [headerLoop, headerLoop]
        rcases hl : readLine [] s with ⟨l, r⟩
        rcases hl' : readLine [] (s ++ t) with ⟨l', r'⟩
        rw [hl, hl'] at h1 h2
        dsimp only at h1 h2
        subst h1 h2
        match l with
        | none => exact .errR
        | some [] => exact .ok ⟨rfl, rfl⟩
        | some (b :: line) =>
          dsimp only
          split
          · exact ih fuel' m r (by omega)
          · exact .same fun m' => ih fuel' m' r (by omega)
      · refine Post.false_sim ?_
        rw [headerLoop]
        rcases hl : readLine [] s with ⟨l, r⟩
        rw [hl] at h0 h1
        dsimp only at h0
        subst h0
        match l with
        | none => exact .errR
        | some [] => exact absurd rfl h1
        | some (b :: line) =>
          dsimp only
          split
          · exact headerLoop_nil T strict fuel m
          · exact Post.any fun m' => headerLoop_nil T strict fuel m'

theorem readSignature_sim (strict : Bool) (s t : List UInt8) :
    Sim (fun a b => a = [] ∨ b = a ++ t) (readSignature strict s) (readSignature strict (s ++ t)) := by
  unfold readSignature
  split
  · refine readExact_by.bind fun a b hab => ?_
    obtain ⟨a, r⟩ := a
    obtain ⟨b, r'⟩ := b
    obtain ⟨h1, h2⟩ := hab
    dsimp only at h1 h2
    subst h1 h2
    dsimp only
    split
    · exact .errR
    · rcases readLine_prefix r t [] with ⟨-, h3⟩ | ⟨h3, -⟩
      · exact .ok (.inr h3)
      · exact .ok (.inl h3)
  · exact .ok (.inr rfl)

/-- Opening a prefix: the same dimensions, or nothing left to read. -/
theorem decoderNew_sim (T : Text) (strict : Bool) (s e : List UInt8) :
    Post (fun d => d.r = [] ∨ ∃ d', Decoder.new T strict (s ++ e) = .ok d' ∧ d'.width = d.width ∧ d'.height = d.height ∧
      d'.r = d.r ++ e) (Decoder.new T strict s) := by
  intro d hd
  unfold Decoder.new at hd
  obtain ⟨t, ht, hd⟩ := bind_eq_ok.1 hd
  obtain ⟨t', ht', htt⟩ := readSignature_sim strict s e t ht
  obtain ⟨⟨m, u⟩, hu, hd⟩ := bind_eq_ok.1 hd
  rcases htt with rfl | rfl
  · exact (headerLoop_nil T strict _ _ _ hu).elim
  obtain ⟨⟨m', u'⟩, hu', huu⟩ := headerLoop_sim T strict e (t.length + 1) ((t ++ e).length + 1) Meta.new t
    (by rw [List.length_append]; omega) _ hu
  obtain ⟨hm, huu⟩ := huu
  dsimp only at hm huu hd
  subst hm huu
  rcases hl : readLine [] u with ⟨l, r⟩
  rw [hl] at hd
  match l, hd with
  | some line, hd =>
    dsimp only at hd
    obtain ⟨wh, hwh, hd⟩ := bind_eq_ok.1 hd
    obtain ⟨c, hc, hd⟩ := bind_eq_ok.1 hd
    cases c with
    | true => cases hd
    | false =>
      cases hd
      rcases readLine_prefix u e [] with ⟨h1, h2⟩ | ⟨h1, -⟩
      · right
        rcases hl' : readLine [] (u ++ e) with ⟨l', r'⟩
        rw [hl, hl'] at h1 h2
        dsimp only at h1 h2
        subst h1 h2
        refine ⟨⟨r ++ e, wh.1, wh.2, m⟩, ?_, rfl, rfl, rfl⟩
        unfold Decoder.new
        rw [ht', ok_bind, hu', ok_bind]
        dsimp only
        rw [hl']
        dsimp only
        rw [hwh, ok_bind]
        rw [hc]
        rfl
      · left
        rw [hl] at h1
        exact h1

theorem readRgbe_sim {s t : List UInt8} : Sim (LongerBy t) (readRgbe s) (readRgbe (s ++ t)) := by
  unfold readRgbe
  refine readExact_by.bind fun a b hab => ?_
  obtain ⟨a, r⟩ := a
  obtain ⟨b, r'⟩ := b
  obtain ⟨h1, h2⟩ := hab
  dsimp only at h1 h2
  subst h1 h2
  exact .ok ⟨rfl, rfl⟩

theorem componentLoop_sim (set : Rgbe → UInt8 → Rgbe) (width : Nat) (t : List UInt8) :
    ∀ (fuel fuel' pos : Nat) (buf : List Rgbe) (s : List UInt8), fuel ≤ fuel' →
    Sim (LongerBy t) (componentLoop set width fuel pos buf s) (componentLoop set width fuel' pos buf (s ++ t)) := by
  intro fuel
  induction fuel with
  | zero => intro fuel' pos buf s _; exact .panicR
  | succ fuel ih =>
    intro fuel' pos buf s hf
    match fuel', hf with
    | fuel' + 1, hf =>
      rw [componentLoop, componentLoop]
      split
      · refine readU8_by.bind fun a b hab => ?_
        obtain ⟨a, r⟩ := a
        obtain ⟨b, r'⟩ := b
        obtain ⟨h1, h2⟩ := hab
        dsimp only at h1 h2
        subst h1 h2
        dsimp only
        split
        · split
          · exact .errR
          · refine readExact_by.bind fun x y hxy => ?_
            obtain ⟨x, r⟩ := x
            obtain ⟨y, r'⟩ := y
            obtain ⟨h1, h2⟩ := hxy
            dsimp only at h1 h2
            subst h1 h2
            dsimp only
            exact .same fun b => ih fuel' _ b r (by omega)
        · split
          · exact .errR
          · refine readU8_by.bind fun x y hxy => ?_
            obtain ⟨x, r⟩ := x
            obtain ⟨y, r'⟩ := y
            obtain ⟨h1, h2⟩ := hxy
            dsimp only at h1 h2
            subst h1 h2
            dsimp only
            exact .same fun b => ih fuel' _ b r (by omega)
      · split
        · exact .errR
        · exact .ok ⟨rfl, rfl⟩

theorem oldRleLoop_sim (width : Nat) (t : List UInt8) :
    ∀ (fuel fuel' xOff mult : Nat) (prev : Rgbe) (buf : List Rgbe) (s : List UInt8), fuel ≤ fuel' →
    Sim (LongerBy t) (oldRleLoop width fuel xOff mult prev buf s) (oldRleLoop width fuel' xOff mult prev buf (s ++ t)) := by
  intro fuel
  induction fuel with
  | zero => intro fuel' xOff mult prev buf s _; exact .panicR
  | succ fuel ih =>
    intro fuel' xOff mult prev buf s hf
    match fuel', hf with
    | fuel' + 1, hf =>
      rw [oldRleLoop, oldRleLoop]
      split
      · refine readRgbe_sim.bind fun a b hab => ?_
        obtain ⟨a, r⟩ := a
        obtain ⟨b, r'⟩ := b
        obtain ⟨h1, h2⟩ := hab
        dsimp only at h1 h2
        subst h1 h2
        dsimp only
        split
        · refine .same fun rl => .same fun mult' => .same fun e => ?_
          split
          · exact ih fuel' _ _ _ _ r (by omega)
          · exact .errR
        · exact .same fun _ => ih fuel' _ _ _ _ r (by omega)
      · split
        · exact .errR
        · exact .ok ⟨rfl, rfl⟩

theorem readScanline_sim (buf : List Rgbe) (s t : List UInt8) :
    Sim (LongerBy t) (readScanline buf s) (readScanline buf (s ++ t)) := by
  have hc : ∀ set w (b : List Rgbe) (u : List UInt8),
      Sim (LongerBy t) (decodeComponent set w b u) (decodeComponent set w b (u ++ t)) := by
    intro set w b u
    exact componentLoop_sim set w t _ _ 0 b u (by rw [List.length_append]; omega)
  unfold readScanline
  refine .same fun _ => readRgbe_sim.bind fun a b hab => ?_
  obtain ⟨a, r⟩ := a
  obtain ⟨b, r'⟩ := b
  obtain ⟨h1, h2⟩ := hab
  dsimp only at h1 h2
  subst h1 h2
  dsimp only
  split
  · refine (hc _ _ _ _).bind fun x y ⟨h1, h2⟩ => ?_
    obtain ⟨x, r⟩ := x
    obtain ⟨y, r'⟩ := y
    dsimp only at h1 h2
    subst h1 h2
    refine (hc _ _ _ _).bind fun x y ⟨h1, h2⟩ => ?_
    obtain ⟨x, r⟩ := x
    obtain ⟨y, r'⟩ := y
    dsimp only at h1 h2
    subst h1 h2
    refine (hc _ _ _ _).bind fun x y ⟨h1, h2⟩ => ?_
    obtain ⟨x, r⟩ := x
    obtain ⟨y, r'⟩ := y
    dsimp only at h1 h2
    subst h1 h2
    exact hc _ _ _ _
  · unfold decodeOldRle
    refine .same fun _ => ?_
    split
    · exact .errR
    · exact oldRleLoop_sim _ _ _ _ _ _ _ _ _ (by rw [List.length_append]; omega)

theorem readRows_sim {α : Type} (f : Rgbe → α) (w h : Nat) (s t : List UInt8) :
    Sim (fun a b => a.1 = b.1 ∧ a.2.1 = b.2.1 ∧ b.2.2 = a.2.2 ++ t) (readRows f w h s) (readRows f w h (s ++ t)) := by
  refine forRange_sim _ _ _ ⟨rfl, rfl, rfl⟩ ?_
  intro i s s' ⟨h1, h2, h3⟩
  rw [h2, h3]
  refine (readScanline_sim _ _ _).bind fun x y ⟨h4, h5⟩ => ?_
  exact .ok ⟨by dsimp only; rw [h1, h4], h4, h5⟩

theorem readRows_nil {α : Type} (f : Rgbe → α) (w h : Nat) (h0 : h ≠ 0) :
    Post (fun _ => False) (readRows f w h []) := by
  unfold readRows
  obtain ⟨n, hn⟩ := Nat.exists_eq_succ_of_ne_zero h0
  rw [hn]
  clear hn
  induction n with
  | zero =>
    rw [forRange_succ, forRange_zero, ok_bind]
    apply Post.bind_false
    unfold readScanline
    exact Post.any fun _ => Post.bind_false .errR
  | succ n ih => rw [forRange_succ]; exact Post.bind_false ih

/-- **C54** for HDR: when a prefix of a file decodes to an image that is not empty, then the whole file decodes to the same
image (so what is behind the image plays no role, and a file that is cut off within the image is rejected). For every
behaviour of the text functions. -/
theorem C54_hdr_prefix (T : Text) (strict : Bool) (file rest : List UInt8) (w h : Nat) (px : List RgbF)
    (hd : decode T strict file = .ok (w, h, px)) (h0 : w * h ≠ 0) : decode T strict (file ++ rest) = .ok (w, h, px) := by
  unfold decode at hd
  obtain ⟨d, hd1, hd2⟩ := bind_eq_ok.1 hd
  obtain ⟨p, hp, hd2⟩ := bind_eq_ok.1 hd2
  cases hd2
  rw [readTransform_eq _ _ h0] at hp
  obtain ⟨st, hst, hp⟩ := bind_eq_ok.1 hp
  rcases decoderNew_sim T strict file rest d hd1 with hr | ⟨d', hd', hw, hh, hr⟩
  · rw [hr] at hst
    exact (readRows_nil _ _ _ (by rintro h; simp [h] at h0) _ hst).elim
  · obtain ⟨st', hst', h1, -⟩ := readRows_sim Rgbe.toHdr d.width d.height d.r rest _ hst
    unfold decode
    rw [hd', ok_bind, readTransform_eq _ _ (by rw [hw, hh]; exact h0), hw, hh, hr, hst', ok_bind]
    cases hp
    rw [h1]
    rfl

theorem truncated_aux {T : Text} (hT : T.Ascii) {w h : Nat} {rows : List (List Rgbe)} {enc : List Rgbe → List UInt8}
    (hR : Readable w rows enc) (hrows : rows.length = h) (hw : w < 2 ^ 32) (hh : h < 2 ^ 32) (hd : w * h * 3 < 2 ^ 64) (n : Nat)
    (hn : n < (headerBytes w h ++ rows.flatMap enc).length) (w' h' : Nat) (px' : List RgbF) (h0 : w' * h' ≠ 0) :
    decode T true ((headerBytes w h ++ rows.flatMap enc).take n) ≠ .ok (w', h', px') := by
  intro hdec
  generalize hfile : headerBytes w h ++ rows.flatMap enc = file at hdec hn
  unfold decode at hdec
  obtain ⟨d, hd1, hd2⟩ := bind_eq_ok.1 hdec
  obtain ⟨p, hp, hd2⟩ := bind_eq_ok.1 hd2
  cases hd2
  rw [readTransform_eq _ _ h0] at hp
  obtain ⟨st, hst, hp⟩ := bind_eq_ok.1 hp
  have e : file.take n ++ file.drop n = file := List.take_append_drop _ _
  rcases decoderNew_sim T true (file.take n) (file.drop n) d hd1 with hr | ⟨d', hd', hw', hh', hr⟩
  · rw [hr] at hst
    exact (readRows_nil _ _ _ (by rintro h; simp [h] at h0) _ hst).elim
  · rw [e, ← hfile, decoderNew_header hT hw hh hd] at hd'
    cases hd'
    dsimp only at hw' hh' hr
    obtain ⟨st', hst', -, -, h3⟩ := readRows_sim Rgbe.toHdr d.width d.height d.r (file.drop n) _ hst
    rw [← hr, ← hw', ← hh'] at hst'
    obtain ⟨st'', hst'', -, h4⟩ := readRows_rows Rgbe.toHdr hR []
    rw [List.append_nil, hrows] at hst''
    rw [hst'] at hst''
    cases hst''
    rw [h3] at h4
    have h5 := congrArg List.length h4
    rw [List.length_append, List.length_drop, List.length_nil] at h5
    omega

/-- **C54** for HDR files written by the encoder (8 to 32767 columns): a file that is cut off anywhere is not decoded to
any image that is not empty. -/
theorem C54_hdr_truncated {T : Text} (hT : T.Ascii) (px : List Rgbe) (w h : Nat) (h8 : 8 ≤ w) (hw : w < 32768) (hh : h < 2 ^ 32)
    (hp : px.length = w * h) (file : List UInt8) (he : encodePixels px w h = .ok file) (n : Nat)
    (hn : n < file.length) (w' h' : Nat) (px' : List RgbF) (h0 : w' * h' ≠ 0) :
    decode T true (file.take n) ≠ .ok (w', h', px') := by
  obtain ⟨rows, enc, hfile, hrows, hR, -⟩ := encodePixels_rows px w h h8 hw hh hp
  rw [hfile] at he
  cases he
  have hwh : w * h < 2 ^ 47 := by
    calc w * h ≤ 32768 * h := Nat.mul_le_mul_right _ (by omega)
      _ < 32768 * 2 ^ 32 := by omega
      _ = 2 ^ 47 := by decide
  exact truncated_aux hT hR hrows (by omega) hh (by omega) n hn w' h' px' h0

/-- **C54** for the files without compression. -/
theorem C54_hdr_plain_truncated {T : Text} (hT : T.Ascii) (rows : List (List Rgbe)) (w : Nat) (hw0 : w ≠ 0)
    (hw : w < 8 ∨ 32768 < w) (hw32 : w < 2 ^ 32) (hh : rows.length < 2 ^ 32) (hd : w * rows.length * 3 < 2 ^ 64)
    (hl : ∀ row ∈ rows, row.length = w) (hs : ∀ row ∈ rows, SafeRow row) (file : List UInt8)
    (he : encodePixels rows.flatten w rows.length = .ok file) (n : Nat) (hn : n < file.length) (w' h' : Nat) (px' : List RgbF)
    (h0 : w' * h' ≠ 0) : decode T true (file.take n) ≠ .ok (w', h', px') := by
  obtain ⟨hfile, hR⟩ := encodePixels_plain_rows rows w hw0 hw hd hl hs
  rw [hfile] at he
  cases he
  exact truncated_aux hT hR rfl hw32 hh hd n hn w' h' px' h0

/-! ## Width 32768 -/

theorem oldRleLoop_head (width : Nat) (a : Rgbe) : ∀ (fuel n mult : Nat) (prev : Rgbe) (buf : List Rgbe) (s : List UInt8),
    Post (fun r => r.1.head? = some a) (oldRleLoop width fuel (n + 1) mult prev (a :: buf) s) := by
  intro fuel
  induction fuel with
  | zero => intro n mult prev buf s; exact .panicR
  | succ fuel ih =>
    intro n mult prev buf s
    rw [oldRleLoop]
    split
    · refine .any fun r => ?_
      dsimp only
      split
      · refine .any fun rl => .any fun mult' => ?_
        intro c hc
        obtain ⟨e, he, hc⟩ := bind_eq_ok.1 hc
        have hge : n + 1 ≤ e := by
          unfold addC at he
          split at he
          · cases he; omega
          · cases he
        split at hc
        · obtain ⟨m, rfl⟩ : ∃ m, e = m + 1 := ⟨e - 1, by omega⟩
          have ho : overwrite (a :: buf) (n + 1) (List.replicate rl prev) = a :: overwrite buf n (List.replicate rl prev) := by
            unfold overwrite
            rw [show n + 1 + (List.replicate rl prev).length = n + (List.replicate rl prev).length + 1 by omega]
            rfl
          rw [ho] at hc
          exact ih m _ _ _ _ c hc
        · cases hc
      · exact .any fun _ => ih (n + 1) _ _ _ _
    · split
      · exact .errR
      · exact .ok rfl

/-- A row whose first pixel is not the marker of the new encoding starts with the first pixel of the data. -/
theorem readScanline_old_head (p : Rgbe) (hp : ¬(p.r = 2 ∧ p.g = 2 ∧ p.b < 128)) (buf : List Rgbe) (s : List UInt8) :
    Post (fun r => r.1.head? = some p) (readScanline buf (p.bytes ++ s)) := by
  unfold readScanline
  refine .any fun _ => ?_
  rw [readRgbe_bytes, ok_bind]
  dsimp only
  rw [if_neg hp]
  unfold decodeOldRle
  intro c hc
  obtain ⟨_, ha, hc⟩ := bind_eq_ok.1 hc
  match buf, ha, hc with
  | b :: buf, _, hc =>
    split at hc
    · cases hc
    · exact oldRleLoop_head _ p _ 0 1 p buf s c hc

theorem readRows_old_head {α : Type} (f : Rgbe → α) (p : Rgbe) (hp : ¬(p.r = 2 ∧ p.g = 2 ∧ p.b < 128)) (w h : Nat) (s : List UInt8) :
    Post (fun st => st.1.head? = some (f p)) (readRows f w (h + 1) (p.bytes ++ s)) := by
  unfold readRows
  induction h with
  | zero =>
    rw [forRange_succ, forRange_zero, ok_bind]
    refine (readScanline_old_head p hp _ s).bind fun r hr => .ok ?_
    dsimp only
    rw [List.nil_append, List.head?_map, hr]
    rfl
  | succ h ih =>
    rw [forRange_succ]
    refine ih.bind fun st hst => .any fun r => .ok ?_
    dsimp only
    rw [List.head?_append, hst]
    rfl

theorem encodeScanline_ok (w : Nat) (row : List Rgbe) (h : row ≠ []) :
    ∃ c, encodeScanline w row = .ok ([2, 2, UInt8.ofNat (w / 256), UInt8.ofNat (w % 256)] ++ c) := by
  have hne : ∀ f : Rgbe → UInt8, row.map f ≠ [] := fun f hf => h (List.map_eq_nil_iff.1 hf)
  obtain ⟨cr, er, -⟩ := rleCompress_spec _ (hne (·.r))
  obtain ⟨cg, eg, -⟩ := rleCompress_spec _ (hne (·.g))
  obtain ⟨cb, eb, -⟩ := rleCompress_spec _ (hne (·.b))
  obtain ⟨ce, ee, -⟩ := rleCompress_spec _ (hne (·.e))
  refine ⟨cr ++ (cg ++ (cb ++ ce)), ?_⟩
  unfold encodeScanline
  rw [er, eg, eb, ee]
  simp

theorem encodePixels_32768 (px : List Rgbe) (h : Nat) (hh : h < 2 ^ 32) (hp : px.length = 32768 * (h + 1)) :
    ∃ c, encodePixels px 32768 (h + 1) = .ok (headerBytes 32768 (h + 1) ++ ([2, 2, 128, 0] ++ c)) := by
  unfold encodePixels
  rw [mulC_ok (by omega), ok_bind, hp, decide_eq_true (Nat.le_refl _), assertR_true, ok_bind, if_neg (by omega)]
  obtain ⟨st, hst, hi⟩ := forRange_inv (n := h + 1)
    (f := fun _ (st : List UInt8 × List Rgbe) => do
      assertR (decide (32768 ≤ st.2.length))
      let b ← encodeScanline 32768 (st.2.take 32768)
      Except.ok (st.1 ++ b, st.2.drop 32768))
    (fun i st => (i ≠ 0 → ∃ c, st.1 = [2, 2, 128, 0] ++ c) ∧ st.2.length = 32768 * (h + 1 - i) ∧ (i = 0 → st.1 = []))
    (s := ([], px)) ⟨by simp, by simpa using hp, by simp⟩ (by
      intro i hlt st ⟨h1, h2, h3⟩
      obtain ⟨c, hc⟩ := encodeScanline_ok 32768 (st.2.take 32768) (by
        intro h0
        have := congrArg List.length h0
        rw [List.length_take, h2, List.length_nil] at this
        omega)
      refine ⟨(st.1 ++ ([2, 2, 128, 0] ++ c), st.2.drop 32768), ?_, ?_, ?_, by simp⟩
      · rw [decide_eq_true (by omega), assertR_true, ok_bind, hc, ok_bind]
        rfl
      · intro _
        by_cases h0 : i = 0
        · exact ⟨c, by rw [h3 h0]; rfl⟩
        · obtain ⟨d, hd⟩ := h1 h0
          exact ⟨_, by rw [hd, List.append_assoc]⟩
      · dsimp only
        rw [List.length_drop, h2]
        omega)
  obtain ⟨c, hc⟩ := hi.1 (by omega)
  rw [hst, ok_bind]
  dsimp only
  rw [hc]
  exact ⟨c, rfl⟩

/-- **C43** is false for images of 32768 columns, which the encoder compresses but the decoder does not take for compressed:
whatever the pixels, if the file is decoded at all, the first pixel is the marker of the first scanline, black. -/
theorem C43_width_32768_false {T : Text} (hT : T.Ascii) (px : List Rgbe) (h : Nat) (h0 : h ≠ 0) (hh : h < 2 ^ 32)
    (hp : px.length = 32768 * h) :
    ∃ file, encodePixels px 32768 h = .ok file ∧ ∀ w' h' px', decode T true file = .ok (w', h', px') →
      w' = 32768 ∧ h' = h ∧ px'.head? = some ⟨.fin 0, .fin 0, .fin 0⟩ := by
  obtain ⟨k, rfl⟩ := Nat.exists_eq_succ_of_ne_zero h0
  obtain ⟨c, hc⟩ := encodePixels_32768 px k (by omega) hp
  refine ⟨_, hc, ?_⟩
  intro w' h' px' hdec
  unfold decode at hdec
  rw [decoderNew_header hT (by omega) hh (by omega), ok_bind] at hdec
  obtain ⟨p, hp, hd⟩ := bind_eq_ok.1 hdec
  cases hd
  rw [readTransform_eq _ _ (Nat.mul_ne_zero (show (32768 : Nat) ≠ 0 by decide) h0)] at hp
  obtain ⟨st, hst, hp⟩ := bind_eq_ok.1 hp
  cases hp
  exact ⟨rfl, rfl, readRows_old_head Rgbe.toHdr ⟨2, 2, 128, 0⟩ (by decide) 32768 k c st hst⟩

end Hdr
end Verif
