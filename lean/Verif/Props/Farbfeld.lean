import Verif.Model.Farbfeld
import Verif.Props.Utils
import Verif.Props.LoadRect

/-!
# farbfeld (C32)
-/

namespace Verif
namespace Farbfeld

/-! ## Specification -/

/-- Exchange the two bytes of every 16-bit unit. -/
def swapPairs : List UInt8 → List UInt8
  | a :: b :: t => b :: a :: swapPairs t
  | l => l

/-- Big-endian 16-bit units to native byte order, and back. -/
def toNative (le : Bool) (l : List UInt8) : List UInt8 := if le then swapPairs l else l

/-! ## Byte order -/

@[simp] theorem length_swapPairs (l : List UInt8) : (swapPairs l).length = l.length := by
  induction l using swapPairs.induct with
  | case1 a b t ih => simp [swapPairs, ih]
  | case2 l h => rw [swapPairs]; exact h

theorem swapPairs_swapPairs (l : List UInt8) : swapPairs (swapPairs l) = l := by
  induction l using swapPairs.induct with
  | case1 a b t ih => simp [swapPairs, ih]
  | case2 l h =>
    have : swapPairs l = l := by rw [swapPairs]; exact h
    rw [this, this]

theorem swapPairs_append {k : Nat} {a b : List UInt8} (h : a.length = 2 * k) :
    swapPairs (a ++ b) = swapPairs a ++ swapPairs b := by
  induction k generalizing a with
  | zero =>
    have : a = [] := List.eq_nil_of_length_eq_zero (by omega)
    subst this; rfl
  | succ k ih =>
    match a, h with
    | x :: y :: t, h =>
      simp only [List.cons_append, swapPairs]
      rw [ih (by simp at h; omega)]

@[simp] theorem length_toNative (le : Bool) (l : List UInt8) : (toNative le l).length = l.length := by
  unfold toNative; split <;> simp

theorem toNative_toNative (le : Bool) (l : List UInt8) : toNative le (toNative le l) = l := by
  unfold toNative; cases le <;> simp [swapPairs_swapPairs]

theorem toNative_append (le : Bool) {k : Nat} {a b : List UInt8} (h : a.length = 2 * k) :
    toNative le (a ++ b) = toNative le a ++ toNative le b := by
  unfold toNative; cases le <;> simp [swapPairs_append h]

theorem toNative_two (le : Bool) {l : List UInt8} (h : l.length = 2) :
    toNative le l = if le then l.reverse else l := by
  match l, h with
  | [a, b], _ => cases le <;> rfl

theorem chunks_toNative (le : Bool) {k : Nat} {l : List UInt8} (h : l.length = 2 * k) :
    (chunksExact 2 l).flatMap (channelBE le) = toNative le l := by
  unfold chunksExact
  rw [h, show 2 * k / 2 = k by omega]
  have H : ∀ j, j ≤ k → (((List.range j).map fun k => (l.drop (k * 2)).take 2).flatMap (channelBE le)) =
      toNative le (l.take (2 * j)) := by
    intro j
    induction j with
    | zero => intro _; simp [toNative, swapPairs]
    | succ j ih =>
      intro hj
      rw [List.range_succ, List.map_append, List.flatMap_append, ih (by omega)]
      have : l.take (2 * (j + 1)) = l.take (2 * j) ++ (l.drop (j * 2)).take 2 := by
        rw [show 2 * (j + 1) = 2 * j + 2 by omega, List.take_add, Nat.mul_comm]
      have h2 : ((l.drop (j * 2)).take 2).length = 2 := by simp; omega
      rw [this, toNative_append (k := j) le (by simp; omega), toNative_two le h2]
      simp [channelBE]
  rw [H k (Nat.le_refl _), ← h, List.take_length]

/-! ## Reading -/

theorem consumeChannel_ok (le : Bool) {c : Cursor} (h : c.pos + 2 ≤ c.bytes.length) :
    consumeChannel le c = .ok (toNative le ((c.bytes.drop c.pos).take 2), { c with pos := c.pos + 2 }) := by
  unfold consumeChannel
  rw [Cursor.readExact_ok h]
  simp only [ok_bind]
  rw [toNative_two le (by simp; omega)]

theorem consumeChannel_err (le : Bool) {c : Cursor} (h : c.bytes.length < c.pos + 2) :
    consumeChannel le c = errR .io := by
  unfold consumeChannel
  rw [Cursor.readExact_err (by omega)]; rfl

/-- The loop over channels. -/
theorem channels_loop (le : Bool) (r : Reader) (out : List UInt8) (k : Nat) :
    forRange k (fun _ ((out, r) : List UInt8 × Reader) => do
      let (b, c) ← consumeChannel le r.inner
      Except.ok (out ++ b, { r with inner := c, offset := r.offset + 2 })) (out, r) =
    if r.inner.pos + 2 * k ≤ r.inner.bytes.length ∨ k = 0 then
      .ok (out ++ toNative le ((r.inner.bytes.drop r.inner.pos).take (2 * k)),
        { r with inner := { r.inner with pos := r.inner.pos + 2 * k }, offset := r.offset + 2 * k })
    else errR .io := by
  induction k with
  | zero => simp [toNative, swapPairs]
  | succ k ih =>
    rw [forRange_succ, ih]
    by_cases h : r.inner.pos + 2 * k ≤ r.inner.bytes.length ∨ k = 0
    · rw [if_pos h]
      simp only [ok_bind]
      by_cases h2 : r.inner.pos + 2 * (k + 1) ≤ r.inner.bytes.length
      · rw [consumeChannel_ok le (by dsimp only; omega), if_pos (Or.inl h2)]
        simp only [ok_bind]
        congr 2
        · rw [List.append_assoc, ← toNative_append le (k := k) (by simp; omega)]
          congr 2
          rw [show 2 * (k + 1) = 2 * k + 2 by omega, List.take_add, List.drop_drop]
      · rw [consumeChannel_err le (by dsimp only; omega), if_neg (by omega)]; rfl
    · rw [if_neg h, if_neg (by omega)]; rfl

/-- `read_exact` of a positive even number of bytes without a cached byte. -/
theorem readExact_even (le : Bool) (r : Reader) {k : Nat} (hc : r.cached = none) (hk : 0 < k) :
    r.readExact le (2 * k) =
      if r.inner.pos + 2 * k ≤ r.inner.bytes.length then
        .ok (toNative le ((r.inner.bytes.drop r.inner.pos).take (2 * k)),
          { r with inner := { r.inner with pos := r.inner.pos + 2 * k }, offset := r.offset + 2 * k })
      else errR .io := by
  unfold Reader.readExact
  obtain ⟨m, hm⟩ : ∃ m, 2 * k = m + 1 := ⟨2 * k - 1, by omega⟩
  have hrd : r.read le (2 * k) = if r.inner.pos + 2 * k ≤ r.inner.bytes.length ∨ k = 0 then
      .ok ([] ++ toNative le ((r.inner.bytes.drop r.inner.pos).take (2 * k)),
        { r with inner := { r.inner with pos := r.inner.pos + 2 * k }, offset := r.offset + 2 * k })
      else errR .io := by
    have e : r.read le (2 * k) = Reader.readChannels le r (2 * k) [] := by
      unfold Reader.read; rw [hc]
    rw [e]
    unfold Reader.readChannels
    rw [if_neg (by omega), show 2 * k / 2 = k by omega]
    exact channels_loop le r [] k
  rw [show Reader.readExactLoop le (2 * k) r (2 * k) [] = Reader.readExactLoop le (m + 1) r (2 * k) [] by rw [hm],
    Reader.readExactLoop, if_neg (by omega), hrd]
  by_cases h : r.inner.pos + 2 * k ≤ r.inner.bytes.length
  · rw [if_pos (Or.inl h), if_pos h]
    simp only [ok_bind, List.nil_append]
    have hl : (toNative le ((r.inner.bytes.drop r.inner.pos).take (2 * k))).length = 2 * k := by simp; omega
    rw [hl, if_neg (by omega), Nat.sub_self]
    cases m <;> simp [Reader.readExactLoop]
  · rw [if_neg (by omega), if_neg h]; rfl

theorem readExact_zero (le : Bool) (r : Reader) : r.readExact le 0 = .ok ([], r) := rfl

/-! ## The header -/

theorem readExactDec_ok {c : Cursor} {n : Nat} (h : c.pos + n ≤ c.bytes.length) :
    readExactDec c n = .ok ((c.bytes.drop c.pos).take n, { c with pos := c.pos + n }) := by
  unfold readExactDec; rw [Cursor.readExact_ok h]

theorem readExactDec_err {c : Cursor} {n : Nat} (h : c.bytes.length - c.pos < n) :
    readExactDec c n = errR .decoding := by
  unfold readExactDec; rw [Cursor.readExact_err h]; rfl

/-- What the header says. -/
def headerWidth (file : List UInt8) : Nat := beNat ((file.drop 8).take 4)
/-- What the header says. -/
def headerHeight (file : List UInt8) : Nat := beNat ((file.drop 12).take 4)
/-- The file starts with the magic value and a complete header. -/
def HeaderOk (file : List UInt8) : Prop := 16 ≤ file.length ∧ file.take 8 = magic

theorem header_lt (file : List UInt8) : headerWidth file < 2 ^ 32 ∧ headerHeight file < 2 ^ 32 := by
  have h1 := beNat_lt ((file.drop 8).take 4)
  have h2 := beNat_lt ((file.drop 12).take 4)
  have e1 : 256 ^ ((file.drop 8).take 4).length ≤ 256 ^ 4 := Nat.pow_le_pow_right (by omega) (by simp; omega)
  have e2 : 256 ^ ((file.drop 12).take 4).length ≤ 256 ^ 4 := Nat.pow_le_pow_right (by omega) (by simp; omega)
  exact ⟨Nat.lt_of_lt_of_le h1 (by omega), Nat.lt_of_lt_of_le h2 (by omega)⟩

theorem new_spec (file : List UInt8) :
    (HeaderOk file → headerWidth file * headerHeight file * 8 < 2 ^ 64 →
      Reader.new ⟨file, 0⟩ = .ok ⟨headerWidth file, headerHeight file, ⟨file, 16⟩, 0, none⟩) ∧
    (HeaderOk file → 2 ^ 64 ≤ headerWidth file * headerHeight file * 8 →
      Reader.new ⟨file, 0⟩ = errR .unsupported) ∧
    (¬ HeaderOk file → Reader.new ⟨file, 0⟩ = errR .decoding) := by
  obtain ⟨hw, hh⟩ := header_lt file
  have key : HeaderOk file → Reader.new ⟨file, 0⟩ =
      (if 2 ^ 64 ≤ headerWidth file * headerHeight file * 8 then errR .unsupported
       else .ok ⟨headerWidth file, headerHeight file, ⟨file, 16⟩, 0, none⟩) := by
    rintro ⟨hl, hm⟩
    unfold Reader.new readDimm
    rw [readExactDec_ok (by dsimp only; omega)]
    simp only [ok_bind, List.drop_zero]
    rw [if_neg (by simpa using hm), readExactDec_ok (by dsimp only; omega)]
    simp only [ok_bind]
    rw [readExactDec_ok (by dsimp only; omega)]
    simp only [ok_bind]
    have := C35_check_dimension_overflow (headerWidth file) (headerHeight file) 8 hw hh (by omega)
    unfold headerWidth headerHeight at this
    simp only [Nat.zero_add]
    rw [this]
    simp only [ok_bind]
    by_cases hc : 2 ^ 64 ≤ beNat ((file.drop 8).take 4) * beNat ((file.drop 12).take 4) * 8 <;>
      simp [hc, headerWidth, headerHeight]
  refine ⟨?_, ?_, ?_⟩
  · intro h1 h2; rw [key h1, if_neg (by omega)]
  · intro h1 h2; rw [key h1, if_pos h2]
  · intro h
    unfold Reader.new readDimm
    by_cases h8 : 8 ≤ file.length
    · rw [readExactDec_ok (by dsimp only; omega)]
      simp only [ok_bind, List.drop_zero]
      by_cases hm : file.take 8 = magic
      · rw [if_neg (by simpa using hm)]
        have hl : file.length < 16 := by
          false_or_by_contra; exact h ⟨by omega, hm⟩
        by_cases h12 : 12 ≤ file.length
        · rw [readExactDec_ok (by dsimp only; omega)]
          simp only [ok_bind]
          rw [readExactDec_err (by dsimp only; omega)]; rfl
        · rw [readExactDec_err (by dsimp only; omega)]; rfl
      · rw [if_pos (by simpa using hm)]
    · rw [readExactDec_err (by dsimp only; omega)]; rfl

end Farbfeld
open Farbfeld

/-! ## C32 -/

/-- The decoder accepts exactly the files with magic value, complete header, a size that fits 64 bits, and at least
the announced amount of pixel data; the result then has the announced dimensions and the pixel data in native byte
order. In every other case an error is returned: no input makes it panic. -/
theorem C32_decode_iff (le : Bool) (file : List UInt8) :
    let w := headerWidth file
    let h := headerHeight file
    (HeaderOk file ∧ w * h * 8 < 2 ^ 64 ∧ 16 + w * h * 8 ≤ file.length →
      decode le file = .ok (w, h, toNative le ((file.drop 16).take (w * h * 8)))) ∧
    (¬ (HeaderOk file ∧ w * h * 8 < 2 ^ 64 ∧ 16 + w * h * 8 ≤ file.length) → ∃ e, decode le file = .error (.err e)) := by
  intro w h
  obtain ⟨n1, n2, n3⟩ := new_spec file
  by_cases hH : HeaderOk file
  · by_cases hs : w * h * 8 < 2 ^ 64
    · have hnew := n1 hH hs
      have htb : totalBytes w h 8 = 2 * (w * h * 4) := by
        rw [C33_total_bytes, if_pos hs]; omega
      by_cases hz : w * h = 0
      · refine ⟨fun _ => ?_, fun hn => ?_⟩
        · unfold decode
          rw [hnew]
          simp only [ok_bind]
          rw [show totalBytes (headerWidth file) (headerHeight file) 8 = 0 by
            rw [htb]; omega, readExact_zero]
          simp only [ok_bind]
          rw [hz]; cases le <;> rfl
        · exact absurd ⟨hH, hs, by rw [hz]; have := hH.1; omega⟩ hn
      · have hre := readExact_even le (⟨w, h, ⟨file, 16⟩, 0, none⟩ : Reader) (k := w * h * 4) rfl (by omega)
        dsimp only at hre
        refine ⟨fun hc => ?_, fun hn => ?_⟩
        · unfold decode
          rw [hnew]
          simp only [ok_bind]
          rw [htb, hre, if_pos (by omega)]
          simp only [ok_bind]
          rw [show 2 * (w * h * 4) = w * h * 8 by omega]
        · refine ⟨.io, ?_⟩
          unfold decode
          rw [hnew]
          simp only [ok_bind]
          rw [htb, hre, if_neg]
          · rfl
          · intro hle; exact hn ⟨hH, hs, by omega⟩
    · refine ⟨fun hc => absurd hc.2.1 hs, fun _ => ⟨.unsupported, ?_⟩⟩
      unfold decode
      rw [n2 hH (Nat.le_of_not_lt hs)]; rfl
  · refine ⟨fun hc => absurd hc.1 hH, fun _ => ⟨.decoding, ?_⟩⟩
    unfold decode
    rw [n3 hH]; rfl

theorem Farbfeld.encode_spec (le : Bool) (data : List UInt8) (w h : Nat) (hl : data.length = w * h * 8)
    (h64 : data.length < 2 ^ 64) :
    encode le data w h = .ok (magic ++ beBytes 4 w ++ beBytes 4 h ++ toNative le data) := by
  unfold encode
  have : (satMul 64 (w * h) 8 == data.length) = true := by
    rw [beq_iff_eq]; unfold satMul; omega
  rw [this]
  simp only [assertR_true, ok_bind]
  rw [chunks_toNative le (k := w * h * 4) (by omega)]

/-- Decoding what the encoder wrote (even with bytes after it) yields the same dimensions and sample bytes. -/
theorem C32_round_trip (le : Bool) (data extra : List UInt8) (w h : Nat) (hw : w < 2 ^ 32) (hh : h < 2 ^ 32)
    (hl : data.length = w * h * 8) (h64 : data.length < 2 ^ 64) :
    ∃ file, encode le data w h = .ok file ∧ decode le (file ++ extra) = .ok (w, h, data) := by
  refine ⟨_, encode_spec le data w h hl h64, ?_⟩
  generalize hf : magic ++ beBytes 4 w ++ beBytes 4 h ++ toNative le data ++ extra = file
  have hm : magic.length = 8 := rfl
  have hd8 : file.drop 8 = beBytes 4 w ++ (beBytes 4 h ++ (toNative le data ++ extra)) := by
    rw [← hf]; simp only [List.append_assoc]; rw [List.drop_left' hm]
  have hd12 : file.drop 12 = beBytes 4 h ++ (toNative le data ++ extra) := by
    rw [show 12 = 8 + 4 from rfl, ← List.drop_drop, hd8, List.drop_left' (by simp)]
  have hd16 : file.drop 16 = toNative le data ++ extra := by
    rw [show 16 = 12 + 4 from rfl, ← List.drop_drop, hd12, List.drop_left' (by simp)]
  have hWd : headerWidth file = w := by
    unfold headerWidth
    rw [hd8, List.take_left' (by simp), beNat_beBytes, Nat.mod_eq_of_lt (by omega)]
  have hHt : headerHeight file = h := by
    unfold headerHeight
    rw [hd12, List.take_left' (by simp), beNat_beBytes, Nat.mod_eq_of_lt (by omega)]
  have hlen : file.length = 16 + data.length + extra.length := by
    rw [← hf]; simp [hm]; omega
  have hOk : HeaderOk file := by
    refine ⟨by omega, ?_⟩
    rw [← hf]; simp only [List.append_assoc]; rw [List.take_left' hm]
  have := (C32_decode_iff le file).1
  simp only [hWd, hHt] at this
  rw [this ⟨hOk, by omega, by omega⟩, hd16, ← hl, List.take_left' (by simp), toNative_toNative]

/-- Every proper prefix of an encoded file is rejected. -/
theorem C32_truncated (le : Bool) (data : List UInt8) (w h : Nat) (hw : w < 2 ^ 32) (hh : h < 2 ^ 32)
    (hl : data.length = w * h * 8) (h64 : data.length < 2 ^ 64) (file : List UInt8)
    (hf : encode le data w h = .ok file) (k : Nat) (hk : k < file.length) :
    ∃ e, decode le (file.take k) = .error (.err e) := by
  rw [encode_spec le data w h hl h64] at hf
  injection hf with hf
  have hm : magic.length = 8 := rfl
  have hlen : file.length = 16 + data.length := by rw [← hf]; simp [hm]; omega
  apply (C32_decode_iff le (file.take k)).2
  rintro ⟨⟨hH, -⟩, h1, h2⟩
  have hkl : (file.take k).length = k := by simp; omega
  rw [hkl] at hH h2
  have hsub : ∀ a, a + 4 ≤ 16 → ((file.take k).drop a).take 4 = (file.drop a).take 4 := by
    intro a ha
    rw [List.drop_take, List.take_take]; congr 1; omega
  have hWd : headerWidth (file.take k) = w := by
    unfold headerWidth
    rw [hsub 8 (by omega), ← hf]
    simp only [List.append_assoc]
    rw [List.drop_left' hm, List.take_left' (by simp), beNat_beBytes, Nat.mod_eq_of_lt (by omega)]
  have hHt : headerHeight (file.take k) = h := by
    unfold headerHeight
    rw [hsub 12 (by omega), ← hf, show 12 = 8 + 4 from rfl, ← List.drop_drop]
    simp only [List.append_assoc]
    rw [List.drop_left' hm, List.drop_left' (by simp), List.take_left' (by simp), beNat_beBytes,
      Nat.mod_eq_of_lt (by omega)]
  rw [hWd, hHt] at h2
  omega

-- Non-vacuity: a 1×1 image.
example : encode true [1, 2, 3, 4, 5, 6, 7, 8] 1 1 = .ok
    ([0x66, 0x61, 0x72, 0x62, 0x66, 0x65, 0x6c, 0x64, 0, 0, 0, 1, 0, 0, 0, 1, 2, 1, 4, 3, 6, 5, 8, 7]) := by rfl
example : decode true [0x66, 0x61, 0x72, 0x62, 0x66, 0x65, 0x6c, 0x64, 0, 0, 0, 1, 0, 0, 0, 1, 2, 1, 4, 3, 6, 5, 8, 7] =
    .ok (1, 1, [1, 2, 3, 4, 5, 6, 7, 8]) := by decide +kernel

/-! ### Rectangles -/

/-- The reader of `file` stands at the 16-bit unit number `k` of the pixel data. -/
structure Farbfeld.AtUnit (file : List UInt8) (r : Reader) (k : Nat) : Prop where
  width : r.width = headerWidth file
  height : r.height = headerHeight file
  bytes : r.inner.bytes = file
  pos : r.inner.pos = 16 + 2 * k
  offset : r.offset = 2 * k
  cached : r.cached = none

theorem Farbfeld.seek_of_parse {r : Reader} (le : Bool) {q : SeekFrom} {d : Int} {p o : Nat}
    (h64 : r.width * r.height * 2 < 2 ^ 64)
    (hq : parseOffset r.offset (r.width * r.height * 2) q = .ok (some d)) (hp : (r.inner.pos : Int) + d = p)
    (ho : (r.offset : Int) + d = o) (hp64 : p < 2 ^ 64) (ho64 : o < 2 ^ 64) (heven : o % 2 = 0) :
    r.seek le q = .ok (r.offset, { r with inner := { r.inner with pos := p }, offset := o, cached := none }) := by
  unfold Reader.seek
  rw [mulC_ok h64]
  simp only [ok_bind]
  rw [hq]
  simp only [ok_bind]
  rw [Cursor.seekCurrent_ok hp hp64]
  simp only [ok_bind]
  have e : (if d < 0 then checkedSub r.offset (-d).toNat else checkedAdd 64 r.offset d.toNat) = some o := by
    unfold checkedSub checkedAdd
    split
    · rw [if_pos (by omega)]; congr 1; omega
    · rw [if_pos (by omega)]; congr 1; omega
  rw [e]
  simp only [unwrapR, ok_bind]
  rw [if_neg (by omega)]

theorem Farbfeld.seek_start {file : List UInt8} {r : Reader} {k j : Nat} (le : Bool) (h : AtUnit file r k)
    (h64 : headerWidth file * headerHeight file * 2 < 2 ^ 64) (hk : 2 * k < 2 ^ 63) (hj : 2 * j < 2 ^ 63) :
    ∃ r', r.seek le (.start (2 * j)) = .ok (2 * k, r') ∧ AtUnit file r' j := by
  obtain ⟨h1, h2, h3, h4, h5, h6⟩ := h
  refine ⟨{ r with inner := { r.inner with pos := 16 + 2 * j }, offset := 2 * j, cached := none }, ?_,
    ⟨h1, h2, h3, rfl, rfl, rfl⟩⟩
  rw [seek_of_parse (d := (2 * j : Nat) - (2 * k : Nat)) (p := 16 + 2 * j) (o := 2 * j) le (by rw [h1, h2]; exact h64)
    ?_ (by omega) (by omega) (by omega) (by omega) (by omega), h5]
  simp only [parseOffset, i64?, h5]
  rw [if_pos hj, if_pos hk]; rfl

theorem Farbfeld.seek_current_zero {file : List UInt8} {r : Reader} (le : Bool) (hr : AtUnit file r 0)
    (h64 : headerWidth file * headerHeight file * 2 < 2 ^ 64) :
    ∃ r', r.seek le (.current 0) = .ok (0, r') ∧ AtUnit file r' 0 := by
  obtain ⟨h1, h2, h3, h4, h5, h6⟩ := hr
  refine ⟨{ r with inner := { r.inner with pos := 16 + 2 * 0 }, offset := 2 * 0, cached := none }, ?_,
    ⟨h1, h2, h3, rfl, rfl, rfl⟩⟩
  rw [seek_of_parse (d := 0) (p := 16 + 2 * 0) (o := 2 * 0) le (by rw [h1, h2]; exact h64)
    ?_ (by omega) (by omega) (by omega) (by omega) (by omega), h5]
  have hi : i64? r.offset = some 0 := by
    unfold i64?; rw [h5, if_pos (by omega)]; rfl
  unfold parseOffset
  rw [hi]
  simp only [Option.getD_some]
  rw [if_neg (by omega)]

/-- The byte number `i` of the decoded image. -/
def Farbfeld.imageByte (le : Bool) (file : List UInt8) (i : Nat) : UInt8 := ((toNative le (file.drop 16))[i]?).getD 0

theorem Farbfeld.toNative_slice (le : Bool) (l : List UInt8) (a k : Nat) :
    toNative le ((l.drop (2 * a)).take (2 * k)) = ((toNative le l).drop (2 * a)).take (2 * k) := by
  by_cases h : 2 * a ≤ l.length
  · have e1 : toNative le l = toNative le (l.take (2 * a)) ++ toNative le (l.drop (2 * a)) := by
      rw [← toNative_append le (k := a) (by simp; omega), List.take_append_drop]
    rw [e1, List.drop_left' (by simp; omega)]
    generalize l.drop (2 * a) = m
    by_cases hk : 2 * k ≤ m.length
    · have e2 : toNative le m = toNative le (m.take (2 * k)) ++ toNative le (m.drop (2 * k)) := by
        rw [← toNative_append le (k := k) (by simp; omega), List.take_append_drop]
      rw [e2, List.take_left' (by simp; omega)]
    · rw [List.take_of_length_le (by omega), List.take_of_length_le (by simp; omega)]
  · rw [List.drop_eq_nil_of_le (by omega), List.drop_eq_nil_of_le (by simp; omega)]
    cases le <;> simp [toNative, swapPairs]

theorem Farbfeld.scanlineDecoder (le : Bool) (file : List UInt8)
    (h63 : headerWidth file * 8 * headerHeight file < 2 ^ 63)
    (hlen : 16 + headerWidth file * 8 * headerHeight file ≤ file.length) :
    ScanlineDecoder (imageByte le file) 2 (headerWidth file * 8 * headerHeight file) (fun _ => False)
      (fun r k => AtUnit file r k ∧ 2 * k ≤ headerWidth file * 8 * headerHeight file)
      (fun r scanline => do
        let p ← mulC 64 scanline 2
        let (_, r) ← r.seek le (.start p)
        .ok r)
      (fun r n => r.readExact le n) := by
  have hwh : headerWidth file * 8 * headerHeight file = headerWidth file * headerHeight file * 8 := by
    rw [Nat.mul_right_comm]
  constructor
  · rintro r k j ⟨hat, hk⟩ hj
    have hj2 : j * 2 < 2 ^ 63 := by rcases hj with rfl | hj <;> omega
    obtain ⟨r', h1, h2⟩ := seek_start (j := j) le hat (by omega) (by omega) (by omega)
    rw [mulC_ok (by omega)]
    simp only [ok_bind]
    rw [Nat.mul_comm j 2, h1]
    exact ⟨h2, by rcases hj with rfl | hj <;> omega⟩
  · rintro r k ⟨⟨h1, h2, h3, h4, h5, h6⟩, hk⟩ hlt
    have he : 2 * k + 2 ≤ headerWidth file * 8 * headerHeight file := by omega
    have hre := readExact_even le r (k := 1) h6 (by omega)
    rw [show 2 * 1 = 2 from rfl, h3, h4, if_pos (by omega)] at hre
    show OkOr _ _ (r.readExact le 2)
    rw [hre]
    refine ⟨?_, ⟨h1, h2, h3, ?_, ?_, h6⟩, by omega⟩
    · dsimp only
      rw [← List.drop_drop]
      have := toNative_slice le (file.drop 16) k 1
      rw [show 2 * 1 = 2 from rfl] at this
      rw [this]
      apply List.ext_getElem?
      intro i
      have hL : (toNative le (file.drop 16)).length = file.length - 16 := by simp
      by_cases hi : i < 2
      · rw [getElem?_segment (by omega), List.getElem?_take_of_lt hi, List.getElem?_drop, imageByte,
          Nat.mul_comm k 2, List.getElem?_eq_getElem (by omega)]
        rfl
      · rw [List.getElem?_eq_none (by simp; omega), List.getElem?_eq_none (by simp; omega)]
    · dsimp only; omega
    · dsimp only; omega

/-- Reading a rectangle from a complete farbfeld file writes exactly the bytes of the rectangle of the image that
`decode` yields (`C32_decode_iff`), at the given pitch, leaves everything else alone, and leaves the reader at the
start, so that any number of rectangles can be read one after another. -/
theorem C32_read_rect (le : Bool) (file : List UInt8) (r : Reader) (hr : AtUnit file r 0)
    (h63 : headerWidth file * 8 * headerHeight file < 2 ^ 63)
    (hlen : 16 + headerWidth file * 8 * headerHeight file ≤ file.length)
    (x y width height rowPitch : Nat) (buf : List UInt8) (hw0 : 0 < width) (hh0 : 0 < height)
    (hx : x + width ≤ headerWidth file) (hy : y + height ≤ headerHeight file) (hb64 : buf.length < 2 ^ 64)
    (hpitch : width * 8 ≤ rowPitch) (hbuf : (height - 1) * rowPitch + width * 8 ≤ buf.length) :
    ∃ buf' r', readRect le r x y width height buf rowPitch = .ok (buf', r') ∧ AtUnit file r' 0 ∧
      buf'.length = buf.length ∧
      (∀ i c, i < height → c < width * 8 → buf'[i * rowPitch + c]? =
        (toNative le (file.drop 16))[(y + i) * (headerWidth file * 8) + x * 8 + c]?) ∧
      (∀ q, (∀ i c, i < height → c < width * 8 → q ≠ i * rowPitch + c) → buf'[q]? = buf[q]?) := by
  have hwh : headerWidth file * 8 * headerHeight file = headerWidth file * headerHeight file * 8 := by
    rw [Nat.mul_right_comm]
  obtain ⟨r1, hcur, hr1at⟩ := seek_current_zero le hr (by omega)
  unfold readRect
  rw [hcur]
  simp only [ok_bind]
  rw [hr1at.width, hr1at.height]
  have hlr := C33_load_rect_partial (headerWidth file) (headerHeight file) 8 x y width height rowPitch
    (scanlineDecoder le file h63 hlen) (by omega) buf r1 ⟨hr1at, by omega⟩ (by omega) hw0 hh0 hx hy (by omega) hb64
    hpitch hbuf
  generalize loadRect (headerWidth file) (headerHeight file) 8 x y width height buf rowPitch r1 2 _ _ = res at hlr
  match res, hlr with
  | .ok (b, r2), hlr =>
    obtain ⟨⟨g1, -⟩, g2, g3, g4⟩ := hlr
    simp only [ok_bind]
    obtain ⟨r3, e1, e2⟩ := seek_start (j := 0) le g1 (by omega) (by omega) (by omega)
    rw [show (2 * 0 : Nat) = 0 from rfl] at e1
    rw [e1]
    refine ⟨b, r3, rfl, e2, g2, ?_, g4⟩
    intro i c hi hc
    rw [g3 i c hi hc, rectByte, imageByte]
    have e3 : (y + i + 1) * (headerWidth file * 8) ≤ headerHeight file * (headerWidth file * 8) :=
      Nat.mul_le_mul_right _ (by omega)
    rw [Nat.add_mul, Nat.one_mul, Nat.mul_comm (headerHeight file)] at e3
    rw [List.getElem?_eq_getElem (by simp; omega)]
    rfl

/-- A fresh decoder is at the start. -/
theorem C32_new_at_start (file : List UInt8) (h : HeaderOk file)
    (h64 : headerWidth file * headerHeight file * 8 < 2 ^ 64) :
    ∃ r, Reader.new ⟨file, 0⟩ = .ok r ∧ AtUnit file r 0 :=
  ⟨_, (new_spec file).1 h h64, ⟨rfl, rfl, rfl, rfl, rfl, rfl⟩⟩

end Verif
