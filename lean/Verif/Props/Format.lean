import Verif.Model.Format

/-!
# Image formats (C28, C29)
-/

namespace Verif
open ImageFormat

/-! ## C28 -/

/-- A buffer starts with a masked signature: it is at least as long as the signature, and each of its first
bytes, restricted to the bits of the mask (all bits where the mask has no entry), is the signature's byte. -/
def Carries (buf sig mask : List UInt8) : Prop :=
  sig.length ≤ buf.length ∧
  ∀ (i : Nat) (b s : UInt8), buf[i]? = some b → sig[i]? = some s → b &&& (mask[i]?.getD 0xff) = s

/-- The published signatures, by format (each line is "mask of the byte, value"). An independent restatement of
what the library documents: see the format specifications. -/
def signatures : ImageFormat → List (List UInt8 × List UInt8)
  | Png => [([0x89, 0x50, 0x4e, 0x47, 0x0d, 0x0a, 0x1a, 0x0a], [])]
  | Jpeg => [([0xff, 0xd8, 0xff], [])]
  | Gif => [("GIF87a".toUTF8.toList, []), ("GIF89a".toUTF8.toList, [])]
  | WebP => [("RIFF\x00\x00\x00\x00WEBP".toUTF8.toList, [0xff, 0xff, 0xff, 0xff, 0, 0, 0, 0])]
  | Pnm => ["P1".toUTF8.toList, "P2".toUTF8.toList, "P3".toUTF8.toList, "P4".toUTF8.toList,
      "P5".toUTF8.toList, "P6".toUTF8.toList, "P7".toUTF8.toList].map (·, [])
  | Tiff => [("II*\x00".toUTF8.toList, []), ("MM\x00*".toUTF8.toList, [])]
  | Tga => []
  | Dds => [("DDS ".toUTF8.toList, [])]
  | Bmp => [("BM".toUTF8.toList, [])]
  | Ico => [([0, 0, 1, 0], [])]
  | Hdr => [("#?RADIANCE".toUTF8.toList, [])]
  | OpenExr => [([0x76, 0x2f, 0x31, 0x01], [])]
  | Farbfeld => [("farbfeld".toUTF8.toList, [])]
  | Avif => [("\x00\x00\x00\x00ftypavif".toUTF8.toList, [0xff, 0xff, 0, 0])]
  | Qoi => [("qoif".toUTF8.toList, [])]
  | Pcx => [([0x0a, 0], [0xff, 0xf8])]

/-- The buffer carries one of the format's signatures. -/
def Is (f : ImageFormat) (buf : List UInt8) : Prop := ∃ e ∈ signatures f, Carries buf e.1 e.2

theorem u8_and_ff (b : UInt8) : b &&& 0xff = b := by
  apply UInt8.toNat_inj.1
  have := b.toNat_lt
  rw [UInt8.toNat_and]
  show b.toNat &&& 255 = b.toNat
  rw [show (255 : Nat) = 2 ^ 8 - 1 from rfl, Nat.and_two_pow_sub_one_eq_mod]; omega

theorem carries_cons (b : UInt8) (bs : List UInt8) (s : UInt8) (ss mask : List UInt8) :
    Carries (b :: bs) (s :: ss) mask ↔ b &&& (mask[0]?.getD 0xff) = s ∧ Carries bs ss mask.tail := by
  unfold Carries
  constructor
  · rintro ⟨h1, h2⟩
    refine ⟨h2 0 b s rfl rfl, by simpa using h1, fun i b' s' hb hs => ?_⟩
    have := h2 (i + 1) b' s' (by simpa using hb) (by simpa using hs)
    simpa using this
  · rintro ⟨h0, h1, h2⟩
    refine ⟨by simpa using h1, fun i b' s' hb hs => ?_⟩
    cases i with
    | zero => simp at hb hs; subst hb hs; exact h0
    | succ i =>
      have := h2 i b' s' (by simpa using hb) (by simpa using hs)
      simpa using this

theorem carries_nil (buf mask : List UInt8) : Carries buf [] mask := ⟨by simp, by simp⟩

theorem startsWith_iff (buf sig : List UInt8) : startsWith buf sig = true ↔ Carries buf sig [] := by
  induction sig generalizing buf with
  | nil => simp [startsWith, carries_nil]
  | cons s ss ih =>
    cases buf with
    | nil => simp [startsWith, Carries]
    | cons b bs => simp [startsWith, carries_cons, ih, u8_and_ff]

theorem maskedAll_iff (buf sig mask : List UInt8) :
    (sig.length ≤ buf.length ∧ maskedAll buf sig mask = true) ↔ Carries buf sig mask := by
  induction sig generalizing buf mask with
  | nil => simp [maskedAll, carries_nil]
  | cons s ss ih =>
    cases buf with
    | nil => simp [Carries]
    | cons b bs =>
      rw [carries_cons]
      cases mask with
      | nil =>
        simp only [maskedAll, List.length_cons, Nat.add_le_add_iff_right, Bool.and_eq_true, beq_iff_eq,
          List.getElem?_nil, Option.getD_none, List.tail_nil]
        rw [← ih bs []]
        constructor <;> (rintro ⟨a, b, c⟩; exact ⟨b, a, c⟩)
      | cons m ms =>
        simp only [maskedAll, List.length_cons, Nat.add_le_add_iff_right, Bool.and_eq_true, beq_iff_eq,
          List.getElem?_cons_zero, Option.getD_some, List.tail_cons]
        rw [← ih bs ms]
        constructor <;> (rintro ⟨a, b, c⟩; exact ⟨b, a, c⟩)

/-- The loop returns the format of the first table entry the buffer carries. -/
theorem guessFrom_iff (buf : List UInt8) (t : List (List UInt8 × List UInt8 × ImageFormat)) (f : ImageFormat) :
    guessFrom buf t = some f ↔ ∃ pre e post, t = pre ++ e :: post ∧ Carries buf e.1 e.2.1 ∧ e.2.2 = f ∧
      ∀ e' ∈ pre, ¬ Carries buf e'.1 e'.2.1 := by
  induction t with
  | nil => simp [guessFrom]
  | cons e rest ih =>
    obtain ⟨sig, mask, g⟩ := e
    have hstep : guessFrom buf ((sig, mask, g) :: rest) =
        (open Classical in if Carries buf sig mask then some g else guessFrom buf rest) := by
      rw [guessFrom]
      cases mask with
      | nil =>
        simp only [List.isEmpty_nil, if_true]
        by_cases h : Carries buf sig []
        · rw [if_pos h, if_pos ((startsWith_iff _ _).2 h)]
        · rw [if_neg h, if_neg (fun h' => h ((startsWith_iff _ _).1 h'))]
      | cons m ms =>
        simp only [List.isEmpty_cons, Bool.false_eq_true, if_false]
        by_cases h : Carries buf sig (m :: ms)
        · rw [if_pos h, if_pos]
          have := (maskedAll_iff _ _ _).2 h
          simp [this.1, this.2]
        · rw [if_neg h, if_neg]
          intro h'
          simp only [Bool.and_eq_true, decide_eq_true_eq] at h'
          exact h ((maskedAll_iff _ _ _).1 h')
    rw [hstep]
    by_cases h : Carries buf sig mask
    · rw [if_pos h]
      constructor
      · intro hf; cases hf; exact ⟨[], _, rest, rfl, h, rfl, by simp⟩
      · rintro ⟨pre, e, post, ht, hc, rfl, hpre⟩
        cases pre with
        | nil => simp at ht; rw [← ht.1]
        | cons p ps => simp at ht; exact absurd h (by have := hpre p (by simp); rw [← ht.1] at this; exact this)
    · rw [if_neg h, ih]
      constructor
      · rintro ⟨pre, e, post, rfl, hc, hf, hpre⟩
        exact ⟨(sig, mask, g) :: pre, e, post, rfl, hc, hf, by
          intro e' he'; rcases List.mem_cons.1 he' with rfl | he'
          · exact h
          · exact hpre e' he'⟩
      · rintro ⟨pre, e, post, ht, hc, hf, hpre⟩
        cases pre with
        | nil => simp at ht; rw [← ht.1] at hc; exact absurd hc h
        | cons p ps =>
          simp at ht
          exact ⟨ps, e, post, ht.2, hc, hf, fun e' he' => hpre e' (by simp [he'])⟩

theorem guessFrom_none (buf : List UInt8) (t : List (List UInt8 × List UInt8 × ImageFormat))
    (h : guessFrom buf t = none) : ∀ e ∈ t, ¬ Carries buf e.1 e.2.1 := by
  intro e he hc
  induction t with
  | nil => simp at he
  | cons e' rest ih =>
    obtain ⟨sig, mask, g⟩ := e'
    rw [guessFrom] at h
    cases mask with
    | nil =>
      simp only [List.isEmpty_nil, if_true] at h
      split at h
      · cases h
      · rename_i hs
        rcases List.mem_cons.1 he with rfl | he
        · exact hs ((startsWith_iff _ _).2 hc)
        · exact ih h he
    | cons m ms =>
      simp only [List.isEmpty_cons, Bool.false_eq_true, if_false] at h
      split at h
      · cases h
      · rename_i hs
        rcases List.mem_cons.1 he with rfl | he
        · have := (maskedAll_iff _ _ _).2 hc
          simp [this.1, this.2] at hs
        · exact ih h he

/-- Two masked signatures exclude each other if some byte position decides. -/
def excludes (e e' : List UInt8 × List UInt8) : Bool :=
  (List.range (min e.1.length e'.1.length)).any fun i =>
    match e.1[i]?, e'.1[i]? with
    | some s, some s' => (s &&& (e'.2[i]?.getD 0xff)) != (s' &&& (e.2[i]?.getD 0xff))
    | _, _ => false

theorem excludes_sound {buf : List UInt8} {e e' : List UInt8 × List UInt8} (hx : excludes e e' = true)
    (h : Carries buf e.1 e.2) (h' : Carries buf e'.1 e'.2) : False := by
  unfold excludes at hx
  rw [List.any_eq_true] at hx
  obtain ⟨i, hi, hd⟩ := hx
  simp only [List.mem_range] at hi
  have hb : i < buf.length := by have := h.1; omega
  rw [List.getElem?_eq_getElem (by omega : i < e.1.length), List.getElem?_eq_getElem (by omega : i < e'.1.length)] at hd
  have k1 := h.2 i _ _ (List.getElem?_eq_getElem hb) (List.getElem?_eq_getElem (by omega : i < e.1.length))
  have k2 := h'.2 i _ _ (List.getElem?_eq_getElem hb) (List.getElem?_eq_getElem (by omega : i < e'.1.length))
  simp only [bne_iff_ne, ne_eq] at hd
  rw [← k1, ← k2] at hd
  apply hd
  rw [UInt8.and_assoc, UInt8.and_assoc]
  congr 1
  exact UInt8.and_comm _ _

theorem magic_signatures : ∀ e ∈ magicBytes, (e.1, e.2.1) ∈ signatures e.2.2 := by decide +kernel
theorem signatures_magic (f : ImageFormat) : ∀ e ∈ signatures f, (e.1, e.2, f) ∈ magicBytes := by
  cases f <;> decide +kernel

/-- Formats of which a buffer can carry both signatures: only ICO and AVIF. -/
theorem C28_disjoint_partial (buf : List UInt8) (f g : ImageFormat) (hf : Is f buf) (hg : Is g buf) :
    f = g ∨ (f = Ico ∧ g = Avif) ∨ (f = Avif ∧ g = Ico) := by
  have key : ∀ e ∈ magicBytes, ∀ e' ∈ magicBytes, excludes (e.1, e.2.1) (e'.1, e'.2.1) = true ∨
      e.2.2 = e'.2.2 ∨ (e.2.2 = Ico ∧ e'.2.2 = Avif) ∨ (e.2.2 = Avif ∧ e'.2.2 = Ico) := by decide +kernel
  obtain ⟨e, he, hc⟩ := hf
  obtain ⟨e', he', hc'⟩ := hg
  rcases key _ (signatures_magic f e he) _ (signatures_magic g e' he') with h | h
  · exact (excludes_sound h hc hc').elim
  · exact h

/-- The full claim is false: a valid AVIF file whose `ftyp` box is 256 bytes long starts with the ICO signature,
and is guessed to be an ICO file. -/
theorem C28_disjoint_false : ∃ buf, Is Ico buf ∧ Is Avif buf ∧ guessFormat buf = .ok Ico := by
  refine ⟨[0, 0, 1, 0, 0x66, 0x74, 0x79, 0x70, 0x61, 0x76, 0x69, 0x66], ?_, ?_, by rfl⟩
  · exact ⟨([0, 0, 1, 0], []), by decide, (startsWith_iff _ _).1 (by decide)⟩
  · exact ⟨([0, 0, 0, 0, 0x66, 0x74, 0x79, 0x70, 0x61, 0x76, 0x69, 0x66], [0xff, 0xff, 0, 0]), by decide +kernel,
      (maskedAll_iff _ _ _).1 (by decide)⟩

/-- `guess_format` returns a format exactly when the buffer carries one of its signatures - except that a buffer
carrying the signatures of both ICO and AVIF is called ICO. -/
theorem C28_guess (buf : List UInt8) (f : ImageFormat) :
    guessFormat buf = .ok f ↔ Is f buf ∧ ¬ (f = Avif ∧ Is Ico buf) := by
  have hsome : guessFormat buf = .ok f ↔ guessFrom buf magicBytes = some f := by
    unfold guessFormat
    cases guessFrom buf magicBytes with
    | none => simp [errR]
    | some g => simp
  rw [hsome]
  constructor
  · intro h
    obtain ⟨pre, e, post, ht, hc, rfl, hpre⟩ := (guessFrom_iff _ _ _).1 h
    have hmem : e ∈ magicBytes := by rw [ht]; simp
    refine ⟨⟨_, magic_signatures e hmem, hc⟩, ?_⟩
    rintro ⟨hav, e', he', hc'⟩
    -- the ICO entry comes before the AVIF entry
    have hmem' := signatures_magic Ico e' he'
    rw [ht] at hmem'
    rcases List.mem_append.1 hmem' with hm | hm
    · exact hpre _ hm hc'
    · have hord : ∀ pre e post, magicBytes = pre ++ e :: post → e.2.2 = Avif →
          ∀ x ∈ e :: post, x.2.2 ≠ Ico := by
        intro pre e post ht hav
        have hlen : pre.length = 11 := by
          have hget : magicBytes[pre.length]? = some e := by rw [ht]; simp
          have hlt : pre.length < magicBytes.length := by rw [ht]; simp
          have hall : ∀ i < magicBytes.length, ∀ e, magicBytes[i]? = some e → e.2.2 = Avif → i = 11 := by decide +kernel
          exact hall _ hlt e hget hav
        have hdrop : e :: post = magicBytes.drop 11 := by
          rw [ht, ← hlen]; simp
        rw [hdrop]; decide +kernel
      exact hord pre e post ht hav _ hm rfl
  · rintro ⟨hf, hna⟩
    cases hg : guessFrom buf magicBytes with
    | none =>
      obtain ⟨e, he, hc⟩ := hf
      exact absurd hc (guessFrom_none _ _ hg _ (signatures_magic f e he))
    | some g =>
      obtain ⟨pre, e, post, ht, hc, rfl, hpre⟩ := (guessFrom_iff _ _ _).1 hg
      have hmem : e ∈ magicBytes := by rw [ht]; simp
      have hgI : Is e.2.2 buf := ⟨_, magic_signatures e hmem, hc⟩
      rcases C28_disjoint_partial buf f e.2.2 hf hgI with h | ⟨h1, h2⟩ | ⟨h1, h2⟩
      · rw [h]
      · -- guessed AVIF although ICO
        exfalso
        obtain ⟨e', he', hc'⟩ := hf
        have hmem' := signatures_magic f e' he'
        rw [ht] at hmem'
        rcases List.mem_append.1 hmem' with hm | hm
        · exact hpre _ hm hc'
        · have hlen : pre.length = 11 := by
            have hget : magicBytes[pre.length]? = some e := by rw [ht]; simp
            have hlt : pre.length < magicBytes.length := by rw [ht]; simp
            have hall : ∀ i < magicBytes.length, ∀ e, magicBytes[i]? = some e → e.2.2 = Avif → i = 11 := by decide +kernel
            exact hall _ hlt e hget h2
          have hdrop : e :: post = magicBytes.drop 11 := by
            rw [ht, ← hlen]; simp
          rw [hdrop] at hm
          have hno : ∀ x ∈ magicBytes.drop 11, x.2.2 ≠ Ico := by decide +kernel
          exact hno _ hm h1
      · rw [h2] at hgI; exact absurd ⟨h1, hgI⟩ hna

/-- `guess_format` fails (unsupported format, never a panic) exactly when no signature is carried. -/
theorem C28_unknown (buf : List UInt8) :
    guessFormat buf = .error (.err .unsupported) ↔ ∀ f, ¬ Is f buf := by
  constructor
  · intro h f hf
    by_cases hh : f = Avif ∧ Is Ico buf
    · rw [(C28_guess buf Ico).2 ⟨hh.2, nofun⟩] at h; cases h
    · rw [(C28_guess buf f).2 ⟨hf, hh⟩] at h; cases h
  · intro h
    cases hg : guessFormat buf with
    | ok f => exact absurd ((C28_guess buf f).1 hg).1 (h f)
    | error e =>
      unfold guessFormat at hg
      split at hg
      · cases hg
      · rw [← hg]; rfl

theorem carries_append {buf sig mask : List UInt8} (h : Carries buf sig mask) (more : List UInt8) :
    Carries (buf ++ more) sig mask := by
  refine ⟨by have := h.1; simp; omega, fun i b s hb hs => ?_⟩
  have hi : i < sig.length := by
    rcases Nat.lt_or_ge i sig.length with h | h
    · exact h
    · rw [List.getElem?_eq_none h] at hs; cases hs
  rw [List.getElem?_append_left (by have := h.1; omega)] at hb
  exact h.2 i b s hb hs

theorem carries_prefix {buf sig mask : List UInt8} {more : List UInt8} (h : Carries (buf ++ more) sig mask)
    (hl : sig.length ≤ buf.length) : Carries buf sig mask := by
  refine ⟨hl, fun i b s hb hs => ?_⟩
  have hi : i < buf.length := by
    rcases Nat.lt_or_ge i buf.length with h | h
    · exact h
    · rw [List.getElem?_eq_none h] at hb; cases hb
  exact h.2 i b s (by rw [List.getElem?_append_left hi]; exact hb) hs

/-- Appending bytes never changes a successful guess. -/
theorem C28_prefix_stable (buf more : List UInt8) (f : ImageFormat) (h : guessFormat buf = .ok f) :
    guessFormat (buf ++ more) = .ok f := by
  obtain ⟨⟨e, he, hc⟩, hna⟩ := (C28_guess buf f).1 h
  refine (C28_guess _ f).2 ⟨⟨e, he, carries_append hc more⟩, ?_⟩
  rintro ⟨hav, e', he', hc'⟩
  refine hna ⟨hav, e', he', carries_prefix hc' ?_⟩
  have h4 : ∀ e' ∈ signatures Ico, e'.1.length = 4 := by decide +kernel
  have h12 : ∀ e ∈ signatures Avif, e.1.length = 12 := by decide +kernel
  have := h4 e' he'
  rw [hav] at he
  have := h12 e he
  have := hc.1
  omega

/-- The guess depends only on the first 12 bytes. -/
theorem C28_first_bytes (buf : List UInt8) : guessFormat buf = guessFormat (buf.take 12) := by
  have h12 : ∀ f, ∀ e ∈ signatures f, e.1.length ≤ 12 := by intro f; cases f <;> decide +kernel
  have hIs : ∀ f, Is f buf ↔ Is f (buf.take 12) := by
    intro f
    constructor
    · rintro ⟨e, he, hc⟩
      have := h12 f e he
      refine ⟨e, he, ?_⟩
      have hc' := hc
      rw [← List.take_append_drop 12 buf] at hc'
      exact carries_prefix hc' (by have := hc.1; rw [List.length_take]; omega)
    · rintro ⟨e, he, hc⟩
      refine ⟨e, he, ?_⟩
      rw [← List.take_append_drop 12 buf]
      exact carries_append hc _
  cases h : guessFormat buf with
  | ok f =>
    have := (C28_guess buf f).1 h
    rw [hIs f, hIs Ico] at this
    exact ((C28_guess _ f).2 this).symm
  | error e =>
    cases h' : guessFormat (buf.take 12) with
    | ok f =>
      have := (C28_guess _ f).1 h'
      rw [← hIs f, ← hIs Ico] at this
      rw [(C28_guess buf f).2 this] at h; cases h
    | error e' =>
      unfold guessFormat at h h'
      split at h
      · cases h
      · split at h'
        · cases h'
        · rw [← h, ← h']

example : guessFormat [0x50, 0x36, 0x0a, 0x31] = .ok Pnm := by rfl
example : Is Pcx [0x0a, 0x05, 0x01] := ⟨_, List.mem_singleton.2 rfl, (maskedAll_iff _ _ _).1 (by decide)⟩

/-! ## C29 -/

/-- Every extension a format lists, in any letter case, maps back to the format. -/
theorem C29_extensions (f : ImageFormat) (ext : String) (h : ext ∈ extensionsStr f) (s : List Char)
    (hs : asciiLower s = ext.toList) : fromExtension (some s) = some f ∧ fromPath (some (some s)) = .ok f := by
  have key : ∀ ext ∈ extensionsStr f, fromExtension (some ext.toList) = some f ∧ asciiLower ext.toList = ext.toList := by
    cases f <;> decide +kernel
  have e : fromExtension (some s) = some f := by
    have := (key ext h)
    rw [← this.1]
    simp only [fromExtension, Option.bind_eq_bind, Option.bind_some, hs, this.2]
  exact ⟨e, by simp [fromPath, e]⟩

/-- Extensions of different formats are different: `extensions_str` lists no extension twice. -/
theorem C29_extensions_distinct (f g : ImageFormat) (ext : String) (hf : ext ∈ extensionsStr f)
    (hg : ext ∈ extensionsStr g) : f = g := by
  have l1 : ∀ ext ∈ extensionsStr f, asciiLower ext.toList = ext.toList := by cases f <;> decide +kernel
  have h1 := (C29_extensions f ext hf ext.toList (l1 ext hf)).1
  have h2 := (C29_extensions g ext hg ext.toList (l1 ext hf)).1
  rw [h1] at h2; exact Option.some.inj h2

/-- Case folding only: `from_extension` cannot tell apart extensions that differ in the case of ASCII letters,
and an extension that is not Unicode is unknown. -/
theorem C29_case_insensitive (s t : List Char) (h : asciiLower s = asciiLower t) :
    fromExtension (some s) = fromExtension (some t) ∧ fromExtension none = none := by
  simp only [fromExtension, h, Option.bind_eq_bind, Option.bind_none, Option.bind_some, and_true]

/-- MIME types map back to their format, for every format but farbfeld, which has none. -/
theorem C29_mime (f : ImageFormat) :
    fromMimeType (toMimeType f) = if f = Farbfeld then none else some f := by
  cases f <;> decide +kernel

/-- The capability tables are consistent: a format that can be written can be read; a format enabled for
reading (writing) can be read (written), whatever the enabled cargo features; an encoder is dispatched to exactly
for the formats enabled for writing. -/
theorem C29_capabilities (f : ImageFormat) (feature : Feature → Bool) :
    (canWrite f = true → canRead f = true) ∧
    (readingEnabled feature f = true → canRead f = true) ∧
    (writingEnabled feature f = true → canWrite f = true) ∧
    (canRead f = true → (∀ x, feature x = true) → readingEnabled feature f = true) ∧
    (canWrite f = true → (∀ x, feature x = true) → writingEnabled feature f = true) ∧
    writeDispatched feature f = writingEnabled feature f := by
  cases f <;> simp +contextual [canWrite, canRead, readingEnabled, writingEnabled, writeDispatched]

/-- `all` lists every format exactly once. -/
theorem C29_all (f : ImageFormat) : ImageFormat.all.count f = 1 := by
  cases f <;> decide

example : asciiLower "JpEG".toList = "jpeg".toList ∧ fromExtension (some "JpEG".toList) = some Jpeg := by
  decide +kernel

end Verif
