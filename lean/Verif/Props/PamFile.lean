import Verif.Proofs.PamFile
import Verif.Props.PnmFile
import Verif.Spec.Pam

/-!
# C116: the PAM decoder shows what the file says

The specification is `Verif.Spec.Pam`, with the raster of `Verif.Spec.Pnm`.
-/

namespace Verif
namespace Pnm
open PnmSpec PamSpec

/-- The tuple type of the model for a description and the name of the tuple type. -/
def pamTuple (type : Option (List UInt8)) (i : Info) : TupleType := if type = some wordBlackAndWhite then .bwBit else tupleOf i

theorem tuple_iff {type : Option (List UInt8)} {w h d m : Nat} (hd : d ≠ 0) (hm : type = none → m ≤ 255) (t : TupleType) :
    (Header.arbitrary h w d m (typeOf type)).tupleType = .ok t ↔ Allowed type d m ∧ 1 ≤ m ∧ m ≤ 65535 ∧ t = pamTuple type (info w h d m) := by
  unfold Header.tupleType Allowed
  dsimp only
  by_cases h0 : m = 0
  · rw [if_pos h0]
    exact ⟨fun h => (by cases h), fun ⟨_, h, _⟩ => by omega⟩
  rw [if_neg h0]
  cases type with
  | none =>
    have hm := hm rfl
    simp only [typeOf, Option.map_none]
    have e : pamTuple none (info w h d m) = if d = 1 then TupleType.grayU8 else .rgbU8 := by
      show tupleOf (info w h d m) = _
      unfold tupleOf info
      simp only [hm, if_true, Bool.false_eq_true, if_false]
    rw [e]
    by_cases h1 : d = 1
    · simp only [h1, if_true, Except.ok.injEq]
      constructor
      · rintro rfl; exact ⟨by simp, by omega, by omega, rfl⟩
      · rintro ⟨-, -, -, rfl⟩; rfl
    rw [if_neg h1]
    by_cases h2 : d = 2
    · rw [if_pos h2]
      exact ⟨fun h => (by cases h), fun ⟨h, _⟩ => by simp at h; omega⟩
    rw [if_neg h2]
    by_cases h3 : d = 3
    · rw [if_pos h3, if_neg h1, Except.ok.injEq]
      constructor
      · rintro rfl; exact ⟨by simp [h3], by omega, by omega, rfl⟩
      · rintro ⟨-, -, -, rfl⟩; rfl
    rw [if_neg h3]
    constructor
    · intro h; split at h <;> cases h
    · rintro ⟨h, -⟩; simp at h; omega
  | some o =>
    obtain ⟨n1, n2, n3⟩ := @tuplOfName_eq o
    simp only [typeOf, Option.map_some]
    simp only [Option.some.injEq, reduceCtorEq, false_and, or_false]
    by_cases k1 : o = wordBlackAndWhite
    · subst k1
      rw [n1.2 rfl]
      dsimp only
      have e : pamTuple (some wordBlackAndWhite) (info w h d m) = .bwBit := if_pos rfl
      rw [e]
      have x1 : wordBlackAndWhite ≠ wordGray := by decide
      have x2 : wordBlackAndWhite ≠ wordRgb := by decide
      simp only [x1, x2, false_and, or_false, true_and]
      by_cases hc : m = 1 ∧ d = 1
      · rw [if_pos hc, Except.ok.injEq]
        constructor
        · rintro rfl; exact ⟨⟨hc.2, hc.1⟩, by omega, by omega, rfl⟩
        · rintro ⟨-, -, -, rfl⟩; rfl
      · rw [if_neg hc]
        exact ⟨fun h => (by cases h), fun ⟨h, _⟩ => absurd ⟨h.2, h.1⟩ hc⟩
    have e : pamTuple (some o) (info w h d m) = tupleOf (info w h d m) := if_neg fun h => k1 (Option.some.inj h)
    rw [e]
    by_cases k2 : o = wordGray
    · subst k2
      rw [n2.2 rfl]
      dsimp only
      have x1 : wordGray ≠ wordBlackAndWhite := by decide
      have x2 : wordGray ≠ wordRgb := by decide
      simp only [x1, x2, false_and, or_false, false_or, true_and]
      unfold tupleOf info
      simp only [Bool.false_eq_true, if_false]
      by_cases h1 : d = 1 <;> by_cases h2 : m ≤ 255 <;> by_cases h3 : m ≤ 65535 <;>
        simp [h1, h2, h3, errR] <;> first | omega | skip
      all_goals first
        | (constructor
           · intro h; subst h; exact ⟨by omega, rfl⟩
           · rintro ⟨-, rfl⟩; rfl)
        | (intro h; split at h <;> cases h; omega)
    by_cases k3 : o = wordRgb
    · subst k3
      rw [n3.2 rfl]
      dsimp only
      have x1 : wordRgb ≠ wordBlackAndWhite := by decide
      have x2 : wordRgb ≠ wordGray := by decide
      simp only [x1, x2, false_and, false_or, true_and]
      unfold tupleOf info
      simp only [Bool.false_eq_true, if_false]
      by_cases h1 : d = 3 <;> by_cases h2 : m ≤ 255 <;> by_cases h3 : m ≤ 65535 <;>
        simp [h1, h2, h3, errR] <;> first | omega | skip
      all_goals first
        | (constructor
           · intro h; subst h; exact ⟨by omega, rfl⟩
           · rintro ⟨-, rfl⟩; rfl)
    · simp only [k1, k2, k3, false_and, or_false]
      constructor
      · intro h
        split at h <;> rename_i hh
        · cases hh
        · exact absurd (n1.1 (Option.some.inj hh)) k1
        · exact absurd (n2.1 (Option.some.inj hh)) k2
        · exact absurd (n3.1 (Option.some.inj hh)) k3
        all_goals cases h
      · rintro ⟨⟨⟩, -⟩

/-- What `decode` does behind the header. -/
def rest_ (le : Bool) (hd : Header) (rest : List UInt8) (t : TupleType) : R (Nat × Nat × ColorType × List UInt8) := do
  if ← checkDimensionOverflow hd.width hd.height t.colorType.bytesPerPixel then errR .unsupported
  else do
    let buf ← (Decoder.mk rest hd t).readImage le (totalBytes hd.width hd.height t.colorType.bytesPerPixel)
    .ok (hd.width, hd.height, t.colorType, buf)

theorem decode_rest (le : Bool) (file : List UInt8) (r : Nat × Nat × ColorType × List UInt8) : decode le file = .ok r ↔
    ∃ hd rest t, readHeader file = .ok (hd, rest) ∧ hd.tupleType = .ok t ∧ rest_ le hd rest t = .ok r := by
  unfold decode Decoder.new rest_
  constructor
  · intro h
    obtain ⟨d, h1, h⟩ := bind_eq_ok.1 h
    obtain ⟨⟨hd, rest⟩, hr, h1⟩ := bind_eq_ok.1 h1
    obtain ⟨t, ht, h1⟩ := bind_eq_ok.1 h1
    obtain ⟨b, hb, h1⟩ := bind_eq_ok.1 h1
    refine ⟨hd, rest, t, hr, ht, ?_⟩
    rw [hb, ok_bind]
    cases b
    · cases h1
      exact h
    · cases h1
  · rintro ⟨hd, rest, t, hr, ht, h⟩
    obtain ⟨b, hb, h⟩ := bind_eq_ok.1 h
    rw [hr, ok_bind]
    dsimp only
    rw [ht, ok_bind, hb]
    cases b
    · exact h
    · cases h

theorem rest_iff (le : Bool) {type : Option (List UInt8)} {w h d m : Nat} (ha : Allowed type d m) (hm1 : 1 ≤ m) (hm2 : m ≤ 65535) (hw : w < 2 ^ 32)
    (hh : h < 2 ^ 32) (ty : Option TuplType) (rest : List UInt8) (r : Nat × Nat × ColorType × List UInt8) :
    rest_ le (.arbitrary h w d m ty) rest (pamTuple type (info w h d m)) = .ok r ↔
      w * h * (colour (info w h d m)).bytesPerPixel < 2 ^ 64 ∧ size (info w h d m) < 2 ^ 32 ∧
        ∃ raw, Raster true (info w h d m) rest raw ∧ (type = some wordBlackAndWhite → ∀ v ∈ raw, v ≤ 1) ∧
          r = (w, h, colour (info w h d m), raw.flatMap fun v => store le (info w h d m) (showF (info w h d m) v)) := by
  have hs : Sound (info w h d m) := by
    refine ⟨hw, hh, ?_⟩
    unfold info
    simp only [Bool.false_eq_true, if_false]
    refine ⟨?_, hm1, hm2⟩
    rcases ha with ⟨-, h, -⟩ | ⟨-, h⟩ | ⟨-, h⟩ | ⟨-, h⟩
    · exact .inl h
    · exact .inl h
    · exact .inr h
    · exact h
  generalize hi : info w h d m = i at hs ⊢
  have iw : i.width = w := by rw [← hi]; rfl
  have ih : i.height = h := by rw [← hi]; rfl
  have ip : i.plain = false := by rw [← hi]; rfl
  have ib : i.bilevel = false := by rw [← hi]; rfl
  have im : i.maxval = m := by rw [← hi]; rfl
  have ic : i.channels = d := by rw [← hi]; rfl
  have hct : (pamTuple type i).colorType = colour i := by
    unfold pamTuple
    split
    · rename_i hbw
      rcases ha with ⟨-, h1, h2⟩ | ⟨h, -⟩ | ⟨h, -⟩ | ⟨h, -⟩
      · unfold colour
        rw [ic, im, h1, h2]; rfl
      · rw [hbw] at h; exact absurd h (by decide)
      · rw [hbw] at h; exact absurd h (by decide)
      · rw [hbw] at h; cases h
    · exact colour_tuple hs
  have hb : 0 < (colour i).bytesPerPixel := by unfold colour; split <;> split <;> decide
  have dims : (Header.arbitrary h w d m ty).width = w ∧ (Header.arbitrary h w d m ty).height = h := ⟨rfl, rfl⟩
  unfold rest_
  rw [hct, dims.1, dims.2, overflow_iff hw hh hb, ok_bind]
  by_cases hlt : w * h * (colour i).bytesPerPixel < 2 ^ 64
  · rw [if_neg (by simpa using hlt)]
    have hn : totalBytes w h (colour i).bytesPerPixel = i.width * i.height * i.channels * if i.maxval ≤ 255 then 1 else 2 := by
      unfold totalBytes satMul
      rw [Nat.min_eq_left (by omega), colour_bytes hs, iw, ih, Nat.mul_assoc (w * h)]
    have key : ∀ buf, (Decoder.mk rest (.arbitrary h w d m ty) (pamTuple type i)).readImage le (totalBytes w h (colour i).bytesPerPixel) = .ok buf ↔
        size i < 2 ^ 32 ∧ ∃ raw, Raster true i rest raw ∧ (type = some wordBlackAndWhite → ∀ v ∈ raw, v ≤ 1) ∧
          buf = raw.flatMap fun v => store le i (showF i v) := by
      intro buf
      unfold Decoder.readImage
      dsimp only
      rw [hct, dims.1, dims.2, assertR_dec (by simp), ok_bind]
      have hcongr : ∀ S c n, Decoder.readSamples le ⟨rest, .arbitrary h w d m ty, pamTuple type i⟩ S c n = Decoder.readSamples le ⟨rest, headerOf i, tupleOf i⟩ S c n := by
        intro S c n
        have e : headerOf i = if d = 1 then .graymap .binary h w m else .pixmap .binary h w m := by
          unfold headerOf
          rw [ib, ip, iw, ih, im, ic]; rfl
        apply readSamples_congr <;> rw [e] <;> split <;> rfl
      have main := readSamples_iff hs (fun _ h => by rw [ib] at h; cases h) le rest buf _ hn
      by_cases hbw : type = some wordBlackAndWhite
      · have hd : d = 1 ∧ m = 1 := by
          rcases ha with ⟨-, h1, h2⟩ | ⟨h, -⟩ | ⟨h, -⟩ | ⟨h, -⟩
          · exact ⟨h1, h2⟩
          · rw [hbw] at h; exact absurd h (by decide)
          · rw [hbw] at h; exact absurd h (by decide)
          · rw [hbw] at h; cases h
        have ht : pamTuple type i = .bwBit := if_pos hbw
        have htup : tupleOf i = .grayU8 := by
          unfold tupleOf
          rw [ib, ic, im, hd.1, hd.2]; rfl
        rw [htup] at main hcongr
        have es : TupleType.bwBit.sample = (.BWBit, 1) := rfl
        have es' : TupleType.grayU8.sample = (.U8, 1) := rfl
        rw [es'] at main
        rw [hcongr, ht, es]
        dsimp only at main ⊢
        rw [readSamples_bw (by unfold headerOf; rw [ib, ip, ic, hd.1]; rfl), main, hn, ic, im, hd.1, hd.2]
        simp only [ip, forall_const, hbw]
        have hraw : ∀ raw, Raster true i rest raw → ((∀ b ∈ rest.take (i.width * i.height * 1 * if 1 ≤ 255 then 1 else 2), b.toNat ≤ 1) ↔ ∀ v ∈ raw, v ≤ 1) := by
          rintro raw ⟨hl, hr⟩
          rw [ip, ib, im, hd.2] at hr
          simp only [Bool.false_eq_true, if_false, Nat.reduceLeDiff, if_true] at hr
          rw [bytes_iff] at hr
          rw [hr.2]
          simp only [Nat.reduceLeDiff, if_true, Nat.mul_one]
          rw [ic, hd.1, Nat.mul_one] at hl
          rw [hl, List.forall_mem_map]
        constructor
        · rintro ⟨⟨h1, raw, h2, h3⟩, h4⟩
          exact ⟨h1, raw, h2, (hraw raw h2).1 h4, h3⟩
        · rintro ⟨h1, raw, h2, h4, h3⟩
          exact ⟨⟨h1, raw, h2, h3⟩, (hraw raw h2).2 h4⟩
      · have ht : pamTuple type i = tupleOf i := if_neg hbw
        rw [hcongr, ht, main]
        simp only [ip, forall_const, hbw, false_implies, true_and]
    constructor
    · intro h
      obtain ⟨buf, h1, h⟩ := bind_eq_ok.1 h
      cases h
      obtain ⟨h2, raw, h3, h4, rfl⟩ := (key _).1 h1
      exact ⟨hlt, h2, raw, h3, h4, rfl⟩
    · rintro ⟨-, h2, raw, h3, h4, rfl⟩
      rw [(key _).2 ⟨h2, raw, h3, h4, rfl⟩]
      rfl
  · rw [if_pos (by simpa using hlt)]
    exact ⟨fun h => (by cases h), fun ⟨h, _⟩ => absurd h hlt⟩

theorem typed_joined {fs : List (List UInt8 × List UInt8)} {type : Option (List UInt8)} {d m : Nat} (ha : Allowed type d m) :
    joined none (entries wordTuple fs) = type ↔ Typed fs type := by
  have h3 : ∀ {word}, word = wordBlackAndWhite ∨ word = wordGray ∨ word = wordRgb → (joined none (entries wordTuple fs) = some word ↔ Typed fs (some word)) := by
    rintro word (rfl | rfl | rfl) <;> exact joined_iff (by decide) (by decide)
  rcases ha with ⟨rfl, -⟩ | ⟨rfl, -⟩ | ⟨rfl, -⟩ | ⟨rfl, -⟩
  · exact h3 (.inl rfl)
  · exact h3 (.inr (.inl rfl))
  · exact h3 (.inr (.inr rfl))
  · exact joined_none

theorem says_lt {fs : List (List UInt8 × List UInt8)} {key : List UInt8} {v : Nat} (h : Says fs key v) : v < 2 ^ 32 := by
  obtain ⟨_, _, -, -, _, -, -, -, h⟩ := h
  exact h

/-- **C116** (shows): whenever a P7 file decodes, it begins with header lines that state the dimensions, the depth, the maximal
sample and perhaps a tuple type, each once. Unless the depth is 0 (`C116_depth_false`) or the maximal sample is above 255 without
a tuple type (`C116_untyped_false`), depth and maximal sample are as the tuple type demands; and every sample of the image is the
sample of the raster that follows, in its place, scaled from the maximal sample to the full range. Samples of
BLACKANDWHITE are 0 or 1. -/
theorem C116_shows (le : Bool) (s : List UInt8) (w h : Nat) (ct : ColorType) (buf : List UInt8)
    (hd : decode le (80 :: 55 :: s) = .ok (w, h, ct, buf)) :
    ∃ fs s' d m rest, s = 10 :: s' ∧ Statements (fun _ => True) fs s' rest ∧ Says fs wordWidth w ∧ Says fs wordHeight h ∧ Says fs wordDepth d ∧
      Says fs wordMaxval m ∧ (d ≠ 0 → (entries wordTuple fs = [] → m ≤ 255) →
        ∃ type raw f, Typed fs type ∧ Allowed type d m ∧ 1 ≤ m ∧ m ≤ 65535 ∧ ct = colour (info w h d m) ∧ Raster false (info w h d m) rest raw ∧
          (type = some wordBlackAndWhite → ∀ v ∈ raw, v ≤ 1) ∧ Scales (if m ≤ 255 then 255 else 65535) m f ∧
          buf = raw.flatMap fun v => store le (info w h d m) (f v)) := by
  obtain ⟨hdr, rest, t, h1, h2, h3⟩ := (decode_rest le _ _).1 hd
  rw [magic7] at h1
  obtain ⟨s', fs, w', h', d, m, rfl, hst, s1, s2, s3, s4, rfl⟩ := (arbitrary_iff _ _ _).1 h1
  have e : w' = w ∧ h' = h := by
    obtain ⟨b, -, h3⟩ := bind_eq_ok.1 h3
    split at h3
    · cases h3
    · obtain ⟨_, -, h3⟩ := bind_eq_ok.1 h3
      cases h3
      exact ⟨rfl, rfl⟩
  obtain ⟨rfl, rfl⟩ := e
  refine ⟨fs, s', d, m, rest, rfl, statements_mono (fun _ _ => trivial) hst, s1, s2, s3, s4, fun hd0 hm => ?_⟩
  obtain ⟨ha, hm1, hm2, rfl⟩ := (tuple_iff (w := w') (h := h') hd0 (fun h => hm (joined_none.1 h)) t).1 h2
  obtain ⟨-, -, raw, hr, hbw, he⟩ := (rest_iff le ha hm1 hm2 (says_lt s1) (says_lt s2) _ rest _).1 h3
  simp only [Prod.mk.injEq, true_and] at he
  refine ⟨_, raw, showF (info w' h' d m), (typed_joined ha).1 rfl, ha, hm1, hm2, he.1, hr, hbw, ?_, he.2⟩
  have hs : Sound (info w' h' d m) := by
    refine ⟨says_lt s1, says_lt s2, ?_⟩
    unfold info
    simp only [Bool.false_eq_true, if_false]
    refine ⟨?_, hm1, hm2⟩
    rcases ha with ⟨-, h, -⟩ | ⟨-, h⟩ | ⟨-, h⟩ | ⟨-, h⟩
    · exact .inl h
    · exact .inl h
    · exact .inr h
    · exact h
  exact showF_shown hs

/-- **C116** (accepts): every P7 file decodes whose header and raster are as the specification says (comments in ASCII), up to the
sizes that the decoder supports. -/
theorem C116_accepts (le : Bool) (file : List UInt8) (w h d m : Nat) (type : Option (List UInt8)) (rest : List UInt8) (raw : List Nat)
    (hh : PamSpec.Header (fun t => ∀ b ∈ t, b < 128) file w h d m type rest) (ha : Allowed type d m) (hm1 : 1 ≤ m) (hm2 : m ≤ 65535)
    (hm : type = none → m ≤ 255) (hr : Raster false (info w h d m) rest raw) (hbw : type = some wordBlackAndWhite → ∀ v ∈ raw, v ≤ 1)
    (hl : w * h * (colour (info w h d m)).bytesPerPixel < 2 ^ 32) :
    ∃ f, Scales (if m ≤ 255 then 255 else 65535) m f ∧
      decode le file = .ok (w, h, colour (info w h d m), raw.flatMap fun v => store le (info w h d m) (f v)) := by
  obtain ⟨s', fs, rfl, hst, s1, s2, s3, s4, hty⟩ := hh
  have hd0 : d ≠ 0 := by
    rcases ha with ⟨-, h, -⟩ | ⟨-, h⟩ | ⟨-, h⟩ | ⟨-, h⟩ <;> omega
  have hs : Sound (info w h d m) := by
    refine ⟨says_lt s1, says_lt s2, ?_⟩
    unfold info
    simp only [Bool.false_eq_true, if_false]
    refine ⟨?_, hm1, hm2⟩
    rcases ha with ⟨-, h, -⟩ | ⟨-, h⟩ | ⟨-, h⟩ | ⟨-, h⟩
    · exact .inl h
    · exact .inl h
    · exact .inr h
    · exact h
  have hj := (typed_joined ha).2 hty
  refine ⟨showF (info w h d m), showF_shown hs, ?_⟩
  rw [decode_rest]
  refine ⟨.arbitrary h w d m (typeOf type), rest, pamTuple type (info w h d m), ?_, ?_, ?_⟩
  · rw [magic7, arbitrary_iff]
    exact ⟨s', fs, w, h, d, m, rfl, statements_mono (fun t ht => utf8_ascii t ht) hst, s1, s2, s3, s4, by rw [hj]⟩
  · exact (tuple_iff hd0 hm _).2 ⟨ha, hm1, hm2, rfl⟩
  · refine (rest_iff le ha hm1 hm2 (says_lt s1) (says_lt s2) _ rest _).2 ⟨by omega, ?_, raw, hr, hbw, rfl⟩
    have := colour_bytes hs
    rw [this, ← Nat.mul_assoc] at hl
    exact hl

theorem line_here {line rest : List UInt8} (h : 10 ∉ line) : Line (line ++ 10 :: rest) line rest := ⟨h, .inl rfl⟩

/-- A grey image of depth 1 with the maximal sample 65535 and no tuple type; its one sample is 256. -/
def untypedFile : List UInt8 := [80, 55, 10, 87, 73, 68, 84, 72, 32, 49, 10, 72, 69, 73, 71, 72, 84, 32, 49, 10, 68, 69, 80, 84, 72, 32, 49, 10, 77, 65, 88, 86, 65, 76, 32, 54, 53, 53, 51, 53, 10, 69, 78, 68, 72, 68, 82, 10, 1, 0]
def untypedFields : List (List UInt8 × List UInt8) := [(wordWidth, [32, 49]), (wordHeight, [32, 49]), (wordDepth, [32, 49]), (wordMaxval, [32, 54, 53, 53, 51, 53])]

/-- **C116** would be false without the restriction on files that state no tuple type: samples of two bytes are taken for samples of one. -/
theorem C116_untyped_false : PamSpec.Header (fun _ => True) untypedFile 1 1 1 65535 none [1, 0] ∧ Allowed none 1 65535 ∧
    Raster false (info 1 1 1 65535) [1, 0] [256] ∧ decode true untypedFile = .ok (1, 1, .L8, [0]) := by
  refine ⟨⟨untypedFile.drop 3, untypedFields, rfl, ?_, ?_, ?_, ?_, ?_, rfl⟩, .inr (.inr (.inr ⟨rfl, .inl rfl⟩)), ⟨rfl, ?_⟩, by decide +kernel⟩
  · refine .field (.inl rfl) ⟨by decide, .inr ⟨32, [49], rfl, by decide⟩⟩ (line_here (by decide)) ?_
    refine .field (.inr (.inl rfl)) ⟨by decide, .inr ⟨32, [49], rfl, by decide⟩⟩ (line_here (by decide)) ?_
    refine .field (.inr (.inr (.inl rfl))) ⟨by decide, .inr ⟨32, [49], rfl, by decide⟩⟩ (line_here (by decide)) ?_
    refine .field (.inr (.inr (.inr (.inl rfl)))) ⟨by decide, .inr ⟨32, _, rfl, by decide⟩⟩ (line_here (by decide)) ?_
    exact .stop (t := []) ⟨by simp, .inl rfl⟩ (line_here (by decide))
  · exact ⟨[32, 49], [49], by decide, ⟨[32], [], by decide, by simp, rfl⟩, [49], by unfold Digits; decide, .inl rfl, by decide, by decide⟩
  · exact ⟨[32, 49], [49], by decide, ⟨[32], [], by decide, by simp, rfl⟩, [49], by unfold Digits; decide, .inl rfl, by decide, by decide⟩
  · exact ⟨[32, 49], [49], by decide, ⟨[32], [], by decide, by simp, rfl⟩, [49], by unfold Digits; decide, .inl rfl, by decide, by decide⟩
  · exact ⟨_, [54, 53, 53, 51, 53], by decide, ⟨[32], [], by decide, by simp, rfl⟩, _, by unfold Digits; decide, .inl rfl, by decide, by decide⟩
  · refine ⟨by decide, fun k hk => ?_⟩
    simp only [List.length_singleton, Nat.lt_one_iff] at hk
    subst hk
    exact ⟨1, 0, rfl, rfl, rfl⟩

/-- A GRAYSCALE file that states the depth 0 and the maximal sample 255. -/
def depthFile : List UInt8 := [80, 55, 10, 87, 73, 68, 84, 72, 32, 49, 10, 72, 69, 73, 71, 72, 84, 32, 49, 10, 68, 69, 80, 84, 72, 32, 48, 10, 77, 65, 88, 86, 65, 76, 32, 50, 53, 53, 10, 84, 85, 80, 76, 84, 89, 80, 69, 32, 71, 82, 65, 89, 83, 67, 65, 76, 69, 10, 69, 78, 68, 72, 68, 82, 10, 1, 0]

/-- **C116** would be false without the restriction on the depth: GRAYSCALE with the depth 0, which no tuple type allows, is read as 16-bit grey. -/
theorem C116_depth_false : decode true depthFile = .ok (1, 1, .L16, [255, 255]) ∧ ¬ Allowed (some wordGray) 0 255 := by
  refine ⟨by decide +kernel, ?_⟩
  unfold Allowed
  decide

/-- A GRAYSCALE file; `blankFile` has an empty line in its header. -/
def plainFile : List UInt8 := [80, 55, 10, 87, 73, 68, 84, 72, 32, 49, 10, 72, 69, 73, 71, 72, 84, 32, 49, 10, 68, 69, 80, 84, 72, 32, 49, 10, 77, 65, 88, 86, 65, 76, 32, 50, 53, 53, 10, 84, 85, 80, 76, 84, 89, 80, 69, 32, 71, 82, 65, 89, 83, 67, 65, 76, 69, 10, 69, 78, 68, 72, 68, 82, 10, 9]
def blankFile : List UInt8 := 80 :: 55 :: 10 :: 10 :: plainFile.drop 3

/-- **C116** leaves out empty lines of the header, which pam(5) ignores: the decoder refuses them. -/
theorem C116_blank_false : decode true plainFile = .ok (1, 1, .L8, [9]) ∧ ∀ r, decode true blankFile ≠ .ok r := by
  refine ⟨by decide +kernel, ?_⟩
  have : decode true blankFile = errR .decoding := by decide +kernel
  rw [this]
  rintro r ⟨⟩

-- Non-vacuity: an RGB file with a comment and the maximal sample 100.
example : decode true [80, 55, 10, 35, 97, 10, 87, 73, 68, 84, 72, 32, 32, 49, 10, 72, 69, 73, 71, 72, 84, 32, 49, 10, 68, 69, 80, 84, 72, 32, 51, 10, 77, 65, 88, 86, 65, 76, 32, 49, 48, 48, 10, 84, 85, 80, 76, 84, 89, 80, 69, 32, 82, 71, 66, 10, 69, 78, 68, 72, 68, 82, 10, 0, 50, 100] =
    .ok (1, 1, .Rgb8, [0, 128, 255]) := by decide +kernel

-- The hypotheses of `C116_accepts` hold for a GRAYSCALE file.
example : PamSpec.Header (fun t => ∀ b ∈ t, b < 128) plainFile 1 1 1 255 (some wordGray) [9] ∧ Allowed (some wordGray) 1 255 ∧
    Raster false (info 1 1 1 255) [9] [9] := by
  refine ⟨⟨plainFile.drop 3, [(wordWidth, [32, 49]), (wordHeight, [32, 49]), (wordDepth, [32, 49]), (wordMaxval, [32, 50, 53, 53]), (wordTuple, 32 :: wordGray)], rfl, ?_, ?_, ?_, ?_, ?_, ?_⟩,
    .inr (.inl ⟨rfl, rfl⟩), ⟨rfl, ?_⟩⟩
  · refine .field (.inl rfl) ⟨by decide, .inr ⟨32, [49], rfl, by decide⟩⟩ (line_here (by decide)) ?_
    refine .field (.inr (.inl rfl)) ⟨by decide, .inr ⟨32, [49], rfl, by decide⟩⟩ (line_here (by decide)) ?_
    refine .field (.inr (.inr (.inl rfl))) ⟨by decide, .inr ⟨32, [49], rfl, by decide⟩⟩ (line_here (by decide)) ?_
    refine .field (.inr (.inr (.inr (.inl rfl)))) ⟨by decide, .inr ⟨32, _, rfl, by decide⟩⟩ (line_here (by decide)) ?_
    refine .field (.inr (.inr (.inr (.inr rfl)))) ⟨by decide, .inr ⟨32, _, rfl, by decide⟩⟩ (line_here (by decide)) ?_
    exact .stop (t := []) ⟨by simp, .inl rfl⟩ (line_here (by decide))
  · exact ⟨[32, 49], [49], by decide, ⟨[32], [], by decide, by simp, rfl⟩, [49], by unfold Digits; decide, .inl rfl, by decide, by decide⟩
  · exact ⟨[32, 49], [49], by decide, ⟨[32], [], by decide, by simp, rfl⟩, [49], by unfold Digits; decide, .inl rfl, by decide, by decide⟩
  · exact ⟨[32, 49], [49], by decide, ⟨[32], [], by decide, by simp, rfl⟩, [49], by unfold Digits; decide, .inl rfl, by decide, by decide⟩
  · exact ⟨_, [50, 53, 53], by decide, ⟨[32], [], by decide, by simp, rfl⟩, _, by unfold Digits; decide, .inl rfl, by decide, by decide⟩
  · exact ⟨_, by decide, ⟨[32], [], by decide, by simp, rfl⟩⟩
  · refine ⟨by decide, fun k hk => ?_⟩
    simp only [List.length_singleton, Nat.lt_one_iff] at hk
    subst hk
    exact ⟨9, rfl, rfl⟩

end Pnm
end Verif
