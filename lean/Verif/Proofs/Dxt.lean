import Verif.Model.Dxt
import Verif.Proofs.Buffer
import Verif.Proofs.Tga
import Verif.Proofs.Outcome
import Mathlib.Tactic.Ring

/-!
# Lemmas about the decoding of S3TC blocks
-/

namespace Verif
namespace Dxt

/-! ## Copying pieces -/

theorem copyAt_ok {dest src : List UInt8} {off : Nat} (h : off + src.length ≤ dest.length) :
    copyAt dest off src = .ok (overwrite dest off src) := by simp [copyAt, h]

/-- A loop that copies disjoint pieces. -/
theorem copyLoop {n : Nat} {off : Nat → Nat} {src : Nat → List UInt8} {dest : List UInt8}
    (hb : ∀ i, i < n → off i + (src i).length ≤ dest.length)
    (hd : ∀ i k, i < k → k < n → off i + (src i).length ≤ off k ∨ off k + (src k).length ≤ off i) :
    ∃ out, forRange n (fun i d => copyAt d (off i) (src i)) dest = .ok out ∧ out.length = dest.length ∧
      (∀ i, i < n → ∀ k, k < (src i).length → out[off i + k]? = (src i)[k]?) ∧
      (∀ j, (∀ i, i < n → j < off i ∨ off i + (src i).length ≤ j) → out[j]? = dest[j]?) := by
  induction n with
  | zero => exact ⟨dest, rfl, rfl, fun i hi => absurd hi (by omega), fun _ _ => rfl⟩
  | succ n ih =>
    obtain ⟨out, h1, h2, h3, h4⟩ := ih (fun i hi => hb i (by omega)) (fun i k hik hk => hd i k hik (by omega))
    have hbn : off n + (src n).length ≤ out.length := by rw [h2]; exact hb n (by omega)
    refine ⟨overwrite out (off n) (src n), ?_, by rw [length_overwrite hbn, h2], ?_, ?_⟩
    · rw [forRange_succ, h1]; exact copyAt_ok hbn
    · intro i hi k hk
      rw [getElem?_overwrite hbn]
      rcases Nat.lt_or_ge i n with h | h
      · have := hd i n h (by omega)
        rcases this with h' | h'
        · rw [if_pos (by omega)]; exact h3 i h k hk
        · rw [if_neg (by omega), if_neg (by omega)]; exact h3 i h k hk
      · have : i = n := by omega
        subst this
        rw [if_neg (by omega), if_pos (by omega)]
        congr 1; omega
    · intro j hj
      rw [getElem?_overwrite hbn]
      rcases hj n (by omega) with h | h
      · rw [if_pos h]; exact h4 j (fun i hi => hj i (by omega))
      · rw [if_neg (by omega), if_neg (by omega)]; exact h4 j (fun i hi => hj i (by omega))

/-! ## Blocks -/

/-- The three bytes that pixel `i` of a colour block gets. -/
def colorOf (isDxt1 : Bool) (source : List UInt8) (i : Nat) : List UInt8 :=
  (colorTable (leNat (source.take 2)) (leNat ((source.drop 2).take 2)) isDxt1).getD (leNat (source.drop 4) / 2 ^ (i * 2) % 4) []

theorem length_colorTable (a b : Nat) (d : Bool) : (colorTable a b d).length = 4 := by
  unfold colorTable; dsimp only; split <;> rfl

theorem colorTable_entry {a b k : Nat} {d : Bool} (h : k < 4) : ((colorTable a b d).getD k []).length = 3 := by
  unfold colorTable enc565
  dsimp only
  split <;> (have : k = 0 ∨ k = 1 ∨ k = 2 ∨ k = 3 := by omega) <;> rcases this with rfl | rfl | rfl | rfl <;> rfl

theorem length_colorOf (d : Bool) (s : List UInt8) (i : Nat) : (colorOf d s i).length = 3 :=
  colorTable_entry (Nat.mod_lt _ (by decide))

theorem decodeColors_spec {source dest : List UInt8} {d : Bool} {pitch : Nat} (hs : source.length = 8)
    (hp : pitch = 3 ∨ pitch = 4) (hd : dest.length = 16 * pitch) :
    ∃ out, decodeColors source dest d = .ok out ∧ out.length = dest.length ∧
      (∀ i, i < 16 → ∀ c, c < 3 → out[i * pitch + c]? = (colorOf d source i)[c]?) ∧
      (pitch = 4 → ∀ i, i < 16 → out[i * 4 + 3]? = dest[i * 4 + 3]?) := by
  unfold decodeColors
  rw [show assertR (decide (source.length = 8 ∧ (dest.length = 48 ∨ dest.length = 64))) = .ok () from by
    rw [decide_eq_true (by omega)]; rfl]
  simp only [ok_bind]
  have hpd : dest.length / 16 = pitch := by omega
  rw [hpd]
  have hcongr : ∀ (i : Nat), i < 16 → ∀ (e : List UInt8), (do
      let c ← unwrapR (colorTable (leNat (source.take 2)) (leNat ((source.drop 2).take 2)) d)[leNat (source.drop 4) / 2 ^ (i * 2) % 4]?
      copyAt e (i * pitch) c) = copyAt e (i * pitch) (colorOf d source i) := by
    intro i _ e
    have hk : leNat (source.drop 4) / 2 ^ (i * 2) % 4 < (colorTable (leNat (source.take 2)) (leNat ((source.drop 2).take 2)) d).length := by
      rw [length_colorTable]; exact Nat.mod_lt _ (by decide)
    rw [List.getElem?_eq_getElem hk]
    simp only [unwrapR, ok_bind, colorOf]
    rw [List.getD_eq_getElem?_getD, List.getElem?_eq_getElem hk]; rfl
  rw [forRange_congr hcongr]
  obtain ⟨out, h1, h2, h3, h4⟩ := copyLoop (n := 16) (off := fun i => i * pitch) (src := colorOf d source) (dest := dest)
    (fun i hi => by rw [length_colorOf]; rcases hp with rfl | rfl <;> omega)
    (fun i k hik hk => by rw [length_colorOf]; rcases hp with rfl | rfl <;> omega)
  refine ⟨out, h1, h2, fun i hi c hc => h3 i hi c (by rw [length_colorOf]; exact hc), ?_⟩
  intro hp4 i hi
  subst hp4
  apply h4
  intro k hk
  rw [length_colorOf]
  omega

/-- The number of channels of a variant. -/
def Variant.ch : Variant → Nat
  | DXT1 => 3
  | _ => 4

/-- The bytes of a block that hold the colours. -/
def colorPart (v : Variant) (block : List UInt8) : List UInt8 :=
  match v with
  | .DXT1 => block
  | _ => (block.drop 8).take 8

/-- The alpha that pixel `i` gets. -/
def alphaOf (v : Variant) (block : List UInt8) (i : Nat) : UInt8 :=
  match v with
  | .DXT5 => (alphaTable (block.getD 0 0) (block.getD 1 0)).getD (leNat ((block.drop 2).take 6) / 2 ^ (i * 3) % 8) 0
  | _ => UInt8.ofNat (leNat (block.take 8) / 2 ^ (i * 4) % 16 * 0x11)

/-- The contents of a decoded block. -/
structure BlockIs (v : Variant) (block out : List UInt8) : Prop where
  len : out.length = v.decodedBytes
  color : ∀ i, i < 16 → ∀ c, c < 3 → out[i * v.ch + c]? = (colorOf (decide (v = .DXT1)) (colorPart v block) i)[c]?
  alpha : v ≠ .DXT1 → ∀ i, i < 16 → out[i * v.ch + 3]? = some (alphaOf v block i)

theorem length_alphaTable (a b : UInt8) : (alphaTable a b).length = 8 := by
  unfold alphaTable; split <;> rfl

theorem alphaLoop {dest : List UInt8} {f : Nat → UInt8} (hd : dest.length = 64) :
    ∃ out, forRange 16 (fun i d => copyAt d (i * 4 + 3) [f i]) dest = .ok out ∧ out.length = 64 ∧
      ∀ i, i < 16 → out[i * 4 + 3]? = some (f i) := by
  obtain ⟨out, h1, h2, h3, -⟩ := copyLoop (n := 16) (off := fun i => i * 4 + 3) (src := fun i => [f i]) (dest := dest)
    (fun i hi => by simp; omega) (fun i k hik hk => by simp; omega)
  refine ⟨out, h1, by omega, fun i hi => ?_⟩
  have := h3 i hi 0 (by simp)
  simpa using this

theorem decodeBlock_spec {v : Variant} {block dest : List UInt8} (hb : block.length = v.encodedBytes)
    (hd : dest.length = v.decodedBytes) : ∃ out, v.decodeBlock block dest = .ok out ∧ BlockIs v block out := by
  cases v with
  | DXT1 =>
    simp only [Variant.encodedBytes, Variant.decodedBytes] at hb hd
    obtain ⟨out, h1, h2, h3, -⟩ := decodeColors_spec (d := true) (pitch := 3) hb (Or.inl rfl) hd
    refine ⟨out, ?_, by rw [h2]; exact hd, h3, fun h => absurd rfl h⟩
    simp only [Variant.decodeBlock, decodeBlock1, hb, hd]
    exact h1
  | DXT3 =>
    simp only [Variant.encodedBytes, Variant.decodedBytes] at hb hd
    obtain ⟨e, g1, g2, g3⟩ := alphaLoop (dest := dest) (f := fun i => UInt8.ofNat (leNat (block.take 8) / 2 ^ (i * 4) % 16 * 0x11)) hd
    obtain ⟨out, h1, h2, h3, h4⟩ := decodeColors_spec (source := (block.drop 8).take 8) (dest := e) (d := false) (pitch := 4)
      (by simp; omega) (Or.inr rfl) g2
    refine ⟨out, ?_, by rw [h2]; exact g2, h3, fun _ i hi => ?_⟩
    · simp only [Variant.decodeBlock, decodeBlock3, hb, hd]
      simp only [and_self, decide_true, assertR_true, ok_bind]
      rw [g1]; exact h1
    · exact (h4 rfl i hi).trans (g3 i hi)
  | DXT5 =>
    simp only [Variant.encodedBytes, Variant.decodedBytes] at hb hd
    obtain ⟨e, g1, g2, g3⟩ := alphaLoop (dest := dest) (f := alphaOf .DXT5 block) hd
    obtain ⟨out, h1, h2, h3, h4⟩ := decodeColors_spec (source := (block.drop 8).take 8) (dest := e) (d := false) (pitch := 4)
      (by simp; omega) (Or.inr rfl) g2
    refine ⟨out, ?_, by rw [h2]; exact g2, h3, fun _ i hi => ?_⟩
    · simp only [Variant.decodeBlock, decodeBlock5, hb, hd]
      simp only [and_self, decide_true, assertR_true, ok_bind]
      rw [List.getElem?_eq_getElem (by omega), List.getElem?_eq_getElem (by omega)]
      simp only [unwrapR, ok_bind]
      rw [forRange_congr (g := fun i d => copyAt d (i * 4 + 3) [alphaOf .DXT5 block i])]
      · rw [g1]; exact h1
      · intro i _ s
        have hk : leNat ((block.drop 2).take 6) / 2 ^ (i * 3) % 8 < (alphaTable block[0] block[1]).length := by
          rw [length_alphaTable]; exact Nat.mod_lt _ (by decide)
        rw [List.getElem?_eq_getElem hk]
        simp only [ok_bind, alphaOf, List.getD_eq_getElem?_getD]
        rw [List.getElem?_eq_getElem (by omega : 0 < block.length), List.getElem?_eq_getElem (by omega : 1 < block.length)]
        simp only [Option.getD_some]
        rw [List.getElem?_eq_getElem hk]; rfl
    · exact (h4 rfl i hi).trans (g3 i hi)

/-! ## Rows of blocks -/

/-- The bytes of a line of a decoded block. -/
def Variant.line (v : Variant) : Nat := 4 * v.ch

theorem decodedBytes_eq (v : Variant) : v.decodedBytes = 16 * v.ch := by cases v <;> rfl
theorem decodedBytes_div (v : Variant) : v.decodedBytes / 4 = v.line := by cases v <;> rfl
theorem ch_pos (v : Variant) : 0 < v.ch := by cases v <;> decide
theorem encodedBytes_pos (v : Variant) : 0 < v.encodedBytes := by cases v <;> decide
theorem bytesPerPixel_eq (v : Variant) : v.colorType.bytesPerPixel = v.ch := by cases v <;> rfl

/-- Offsets of the lines of two blocks are apart. -/
theorem line_apart {n l x l' x' m : Nat} (hx : x < n) (hx' : x' < n) (h : (l, x) ≠ (l', x')) :
    (n * l + x) * m + m ≤ (n * l' + x') * m ∨ (n * l' + x') * m + m ≤ (n * l + x) * m := by
  have key : n * l + x < n * l' + x' ∨ n * l' + x' < n * l + x := by
    rcases Nat.lt_trichotomy l l' with hl | hl | hl
    · left
      have : n * (l + 1) ≤ n * l' := Nat.mul_le_mul_left n hl
      rw [Nat.mul_add] at this; omega
    · subst hl
      have : x ≠ x' := fun e => h (by rw [e])
      omega
    · right
      have : n * (l' + 1) ≤ n * l := Nat.mul_le_mul_left n hl
      rw [Nat.mul_add] at this; omega
  rcases key with h | h
  · left
    have := Nat.mul_le_mul_right m (show n * l + x + 1 ≤ n * l' + x' from h)
    rw [Nat.add_mul, Nat.one_mul] at this; exact this
  · right
    have := Nat.mul_le_mul_right m (show n * l' + x' + 1 ≤ n * l + x from h)
    rw [Nat.add_mul, Nat.one_mul] at this; exact this

theorem line_fits {n l x m : Nat} (hx : x < n) (hl : l < 4) : (n * l + x) * m + m ≤ n * (4 * m) := by
  have h1 : n * l + x + 1 ≤ n * 4 := by
    have : n * (l + 1) ≤ n * 4 := Nat.mul_le_mul_left n hl
    rw [Nat.mul_add] at this; omega
  have := Nat.mul_le_mul_right m h1
  rw [Nat.add_mul, Nat.one_mul, Nat.mul_assoc] at this; exact this

theorem placeBlock_spec {v : Variant} {n x : Nat} {block scratch dest : List UInt8} (hx : x < n)
    (hb : block.length = v.encodedBytes) (hs : scratch.length = v.decodedBytes) (hd : dest.length = n * v.decodedBytes) :
    ∃ blk out, placeBlock v n x block (scratch, dest) = .ok (blk, out) ∧ BlockIs v block blk ∧ out.length = dest.length ∧
      (∀ l, l < 4 → ∀ k, k < v.line → out[(n * l + x) * v.line + k]? = blk[l * v.line + k]?) ∧
      (∀ l, l < 4 → ∀ x', x' < n → x' ≠ x → ∀ k, k < v.line →
        out[(n * l + x') * v.line + k]? = dest[(n * l + x') * v.line + k]?) := by
  obtain ⟨blk, h1, h2⟩ := decodeBlock_spec hb hs
  have hlen : ∀ l, l < 4 → ((blk.drop (l * v.line)).take v.line).length = v.line := by
    intro l hl
    have := h2.len
    rw [decodedBytes_eq] at this
    simp only [List.length_take, List.length_drop, Variant.line]
    have := Nat.mul_le_mul_right (4 * v.ch) (show l + 1 ≤ 4 from hl)
    rw [Nat.add_mul] at this
    omega
  have hd' : dest.length = n * (4 * v.line) := by rw [hd, decodedBytes_eq, Variant.line]; congr 1; omega
  obtain ⟨out, g1, g2, g3, g4⟩ := copyLoop (n := 4) (off := fun l => (n * l + x) * v.line)
    (src := fun l => (blk.drop (l * v.line)).take v.line) (dest := dest)
    (fun l hl => by rw [hlen l hl, hd']; exact line_fits hx hl)
    (fun l k hlk hk => by
      rw [hlen l (by omega), hlen k hk]
      exact line_apart hx hx (fun e => by cases e; omega))
  refine ⟨blk, out, ?_, h2, g2, ?_, ?_⟩
  · simp only [placeBlock, h1, ok_bind, decodedBytes_div]
    rw [g1]; rfl
  · intro l hl k hk
    have := g3 l hl k (by rw [hlen l hl]; exact hk)
    rw [this, List.getElem?_take_of_lt hk, List.getElem?_drop]
  · intro l hl x' hx' hne k hk
    apply g4
    intro l' hl'
    rw [hlen l' hl']
    have := line_apart (l := l) (l' := l') (m := v.line) hx' hx (fun e => by cases e; exact hne rfl)
    omega

theorem getElem?_chunksOf {α : Type} {n k : Nat} {l : List α} (hl : l.length = k * n) (hn : 0 < n) {x : Nat} (hx : x < k) :
    (chunksOf n l)[x]? = some ((l.drop (x * n)).take n) := by
  unfold chunksOf
  have : (l.length + n - 1) / n = k := by
    rw [hl, show k * n + n - 1 = n - 1 + k * n by omega, Nat.add_mul_div_right _ _ hn, Nat.div_eq_of_lt (by omega)]; omega
  rw [this, List.getElem?_map, List.getElem?_range hx]; rfl

theorem decodeRow_spec {v : Variant} {n : Nat} {source dest : List UInt8} (hs : source.length = n * v.encodedBytes)
    (hd : dest.length = n * v.decodedBytes) :
    ∃ out, decodeRow v source dest = .ok out ∧ out.length = dest.length ∧
      ∀ x, x < n → ∃ blk, BlockIs v ((source.drop (x * v.encodedBytes)).take v.encodedBytes) blk ∧
        ∀ l, l < 4 → ∀ k, k < v.line → out[(n * l + x) * v.line + k]? = blk[l * v.line + k]? := by
  have hpos := encodedBytes_pos v
  obtain ⟨-, hc, hclen⟩ := chunksOf_eq hpos hs
  have hdiv : source.length / v.encodedBytes = n := by rw [hs]; exact Nat.mul_div_cancel n hpos
  unfold decodeRow
  rw [show source.length % v.encodedBytes = 0 by rw [hs]; exact Nat.mul_mod_left n _]
  simp only [decide_true, assertR_true, ok_bind, hdiv, hd, Nat.le_refl, hclen]
  obtain ⟨⟨scr, out⟩, h1, h2, h3, h4⟩ := forRange_inv (n := n)
    (f := fun x (st : List UInt8 × List UInt8) => do
      let block ← unwrapR (chunksOf v.encodedBytes source)[x]?
      placeBlock v n x block st)
    (s := (List.replicate v.decodedBytes 0, dest))
    (fun i st => st.1.length = v.decodedBytes ∧ st.2.length = dest.length ∧
      ∀ x, x < i → ∃ blk, BlockIs v ((source.drop (x * v.encodedBytes)).take v.encodedBytes) blk ∧
        ∀ l, l < 4 → ∀ k, k < v.line → st.2[(n * l + x) * v.line + k]? = blk[l * v.line + k]?)
    ⟨by simp, rfl, fun x hx => absurd hx (by omega)⟩
    (by
      intro i hlt st hinv
      obtain ⟨hi1, hi2, hi3⟩ := hinv
      rw [getElem?_chunksOf hs hpos hlt]
      simp only [unwrapR, ok_bind]
      have hblen : ((source.drop (i * v.encodedBytes)).take v.encodedBytes).length = v.encodedBytes := by
        simp only [List.length_take, List.length_drop]
        have := Nat.mul_le_mul_right v.encodedBytes (show i + 1 ≤ n from hlt)
        rw [Nat.add_mul] at this
        omega
      obtain ⟨blk, out, p1, p2, p3, p4, p5⟩ := placeBlock_spec (scratch := st.1) (dest := st.2) hlt hblen hi1 (by rw [hi2, hd])
      refine ⟨(blk, out), p1, p2.len, by rw [p3, hi2], ?_⟩
      intro x hx
      rcases Nat.lt_or_ge x i with h | h
      · obtain ⟨b, hb1, hb2⟩ := hi3 x h
        refine ⟨b, hb1, fun l hl k hk => ?_⟩
        rw [← hb2 l hl k hk]
        exact p5 l hl x (by omega) (by omega) k hk
      · have : x = i := by omega
        subst this
        exact ⟨blk, p2, p4⟩)
  exact ⟨out, by rw [h1]; rfl, by rw [h3, hd], h4⟩

/-- Two contents of the same block are the same. -/
theorem BlockIs.unique {v : Variant} {block o1 o2 : List UInt8} (h1 : BlockIs v block o1) (h2 : BlockIs v block o2) : o1 = o2 := by
  apply List.ext_getElem?
  intro j
  rcases Nat.lt_or_ge j v.decodedBytes with hj | hj
  · rw [decodedBytes_eq] at hj
    have hp := ch_pos v
    have hi : j / v.ch < 16 := by rw [Nat.div_lt_iff_lt_mul hp]; exact hj
    have hc : j % v.ch < v.ch := Nat.mod_lt _ hp
    have he : j = j / v.ch * v.ch + j % v.ch := by rw [Nat.mul_comm]; exact (Nat.div_add_mod j v.ch).symm
    rcases Nat.lt_or_ge (j % v.ch) 3 with h | h
    · rw [he, h1.color _ hi _ h, h2.color _ hi _ h]
    · have hv : v ≠ .DXT1 := by rintro rfl; simp only [Variant.ch] at hc h; omega
      have h3 : j % v.ch = 3 := by
        have : v.ch = 4 := by cases v with
          | DXT1 => exact absurd rfl hv
          | DXT3 => rfl
          | DXT5 => rfl
        omega
      rw [he, h3, h1.alpha hv _ hi, h2.alpha hv _ hi]
  · rw [List.getElem?_eq_none (by rw [h1.len]; exact hj), List.getElem?_eq_none (by rw [h2.len]; exact hj)]

/-! ## Images -/

/-- The bytes of block number `k`. -/
def blockAt (v : Variant) (data : List UInt8) (k : Nat) : List UInt8 := (data.drop (k * v.encodedBytes)).take v.encodedBytes

/-- The loop over the scanlines: `q` scanlines of blocks are read from data that hold them. -/
theorem scanLoop {v : Variant} {n hb : Nat} (q : Nat) {data rest buf acc : List UInt8} {row : Nat}
    (hd : data.length = q * (v.encodedBytes * n)) (hbuf : buf.length = q * (v.decodedBytes * n)) (hn : 0 < n)
    (hr : row + q < 2 ^ 32) :
    ∃ out, forList (chunksOf (max (v.decodedBytes * n) 1) buf) (fun chunk (st : List UInt8 × Decoder) => do
        let (chunk, d) ← st.2.readScanline chunk
        .ok (st.1 ++ chunk, d)) (acc, ⟨data ++ rest, n, hb, v, row⟩) =
          .ok (acc ++ out, ⟨rest, n, hb, v, row + q⟩) ∧ out.length = buf.length ∧
      ∀ y, y < q → ∀ x, x < n → ∃ blk, BlockIs v (blockAt v data (y * n + x)) blk ∧
        ∀ l, l < 4 → ∀ k, k < v.line → out[y * (v.decodedBytes * n) + ((n * l + x) * v.line + k)]? = blk[l * v.line + k]? := by
  have hpos : 0 < v.decodedBytes * n := Nat.mul_pos (by cases v <;> decide) hn
  have hmax : max (v.decodedBytes * n) 1 = v.decodedBytes * n := by omega
  rw [hmax]
  induction q generalizing data buf acc row with
  | zero =>
    have h0 : buf = [] := List.eq_nil_of_length_eq_zero (by omega)
    have h1 : data = [] := List.eq_nil_of_length_eq_zero (by omega)
    subst h0 h1
    exact ⟨[], by rw [chunksOf_nil hpos]; simp [forList], rfl, fun y hy => absurd hy (by omega)⟩
  | succ q ih =>
    have hbl : buf = buf.take (v.decodedBytes * n) ++ buf.drop (v.decodedBytes * n) := (List.take_append_drop _ _).symm
    have hdl : data = data.take (v.encodedBytes * n) ++ data.drop (v.encodedBytes * n) := (List.take_append_drop _ _).symm
    have e1 : (q + 1) * (v.decodedBytes * n) = q * (v.decodedBytes * n) + v.decodedBytes * n := by rw [Nat.add_mul, Nat.one_mul]
    have e2 : (q + 1) * (v.encodedBytes * n) = q * (v.encodedBytes * n) + v.encodedBytes * n := by rw [Nat.add_mul, Nat.one_mul]
    have hb1 : (buf.take (v.decodedBytes * n)).length = v.decodedBytes * n := by simp only [List.length_take]; omega
    have hb2 : (buf.drop (v.decodedBytes * n)).length = q * (v.decodedBytes * n) := by simp only [List.length_drop]; omega
    have hd1 : (data.take (v.encodedBytes * n)).length = v.encodedBytes * n := by simp only [List.length_take]; omega
    have hd2 : (data.drop (v.encodedBytes * n)).length = q * (v.encodedBytes * n) := by simp only [List.length_drop]; omega
    obtain ⟨o1, r1, r2, r3⟩ := decodeRow_spec (v := v) (n := n) (source := data.take (v.encodedBytes * n))
      (dest := buf.take (v.decodedBytes * n)) (by rw [hd1, Nat.mul_comm]) (by rw [hb1, Nat.mul_comm])
    obtain ⟨o2, s1, s2, s3⟩ := ih (data := data.drop (v.encodedBytes * n)) (buf := buf.drop (v.decodedBytes * n))
      (acc := acc ++ o1) (row := row + 1) hd2 hb2 (by omega)
    have hstep : Decoder.readScanline ⟨data ++ rest, n, hb, v, row⟩ (buf.take (v.decodedBytes * n)) =
        .ok (o1, ⟨data.drop (v.encodedBytes * n) ++ rest, n, hb, v, row + 1⟩) := by
      unfold Decoder.readScanline
      simp only [Decoder.scanlineBytes, hb1, decide_true, assertR_true, ok_bind]
      rw [show data ++ rest = data.take (v.encodedBytes * n) ++ (data.drop (v.encodedBytes * n) ++ rest) by
        rw [← List.append_assoc, List.take_append_drop], readExact_append' hd1]
      simp only [ok_bind, r1]
      rw [addC_ok (by omega)]; rfl
    refine ⟨o1 ++ o2, ?_, by rw [List.length_append, r2, s2, hb1, hb2]; omega, ?_⟩
    · rw [hbl, chunksOf_append hpos hb1]
      simp only [forList]
      rw [hstep]
      simp only [ok_bind]
      rw [s1, List.append_assoc, show row + (q + 1) = row + 1 + q by omega]
    · intro y hy x hx
      cases y with
      | zero =>
        obtain ⟨blk, b1, b2⟩ := r3 x hx
        have hxl : x * v.encodedBytes + v.encodedBytes ≤ v.encodedBytes * n := by
          have := Nat.mul_le_mul_right v.encodedBytes (show x + 1 ≤ n from hx)
          rw [Nat.add_mul, Nat.one_mul, Nat.mul_comm n] at this; exact this
        refine ⟨blk, ?_, fun l hl k hk => ?_⟩
        · have : ((data.take (v.encodedBytes * n)).drop (x * v.encodedBytes)).take v.encodedBytes = blockAt v data (0 * n + x) := by
            rw [blockAt, Nat.zero_mul, Nat.zero_add, List.drop_take, List.take_take, Nat.min_eq_left (by omega)]
          rw [← this]; exact b1
        · rw [Nat.zero_mul, Nat.zero_add, List.getElem?_append_left]
          · exact b2 l hl k hk
          · rw [r2, hb1, decodedBytes_eq]
            have := line_fits (m := v.line) hx hl
            have h4 : n * (4 * v.line) = 16 * v.ch * n := by rw [Variant.line, Nat.mul_comm n]; congr 1; omega
            omega
      | succ y =>
        obtain ⟨blk, b1, b2⟩ := s3 y (by omega) x hx
        refine ⟨blk, ?_, fun l hl k hk => ?_⟩
        · have : blockAt v (data.drop (v.encodedBytes * n)) (y * n + x) = blockAt v data ((y + 1) * n + x) := by
            simp only [blockAt, List.drop_drop]
            congr 2
            rw [show (y + 1) * n + x = n + (y * n + x) by rw [Nat.add_mul]; omega, Nat.add_mul n, Nat.mul_comm n]
          rw [← this]; exact b1
        · rw [← b2 l hl k hk, List.getElem?_append_right]
          · congr 1
            rw [r2, hb1, Nat.add_mul, Nat.one_mul]; omega
          · rw [r2, hb1, Nat.add_mul, Nat.one_mul]; omega

/-- Reading an image of `n × m` blocks. -/
theorem readImage_spec {v : Variant} {n m : Nat} {data rest buf : List UInt8} (hd : data.length = n * m * v.encodedBytes)
    (hbuf : buf.length = totalBytes (4 * n) (4 * m) v.ch) (hfit : 4 * n * (4 * m) * v.ch < 2 ^ 64) (hm : m < 2 ^ 32) :
    ∃ out, Decoder.readImage ⟨data ++ rest, n, m, v, 0⟩ buf = .ok out ∧ out.length = 4 * n * (4 * m) * v.ch ∧
      ∀ x y, x < 4 * n → y < 4 * m → ∃ blk, BlockIs v (blockAt v data (y / 4 * n + x / 4)) blk ∧
        ∀ c, c < v.ch → out[(y * (4 * n) + x) * v.ch + c]? = blk[(4 * (y % 4) + x % 4) * v.ch + c]? := by
  have htot : totalBytes (4 * n) (4 * m) v.ch = 4 * n * (4 * m) * v.ch := by
    unfold totalBytes satMul; omega
  rw [htot] at hbuf
  have hassert : buf.length = totalBytes (n * 4) (m * 4) v.colorType.bytesPerPixel := by
    rw [bytesPerPixel_eq, Nat.mul_comm n, Nat.mul_comm m, htot, hbuf]
  have hunf : ∀ d : Decoder, buf.length = totalBytes d.dimensions.1 d.dimensions.2 d.variant.colorType.bytesPerPixel →
      d.readImage buf = (forList (chunksOf (max d.scanlineBytes 1) buf) (fun chunk (st : List UInt8 × Decoder) => do
        let (chunk, d) ← st.2.readScanline chunk
        .ok (st.1 ++ chunk, d)) ([], d) >>= fun p => .ok p.1) := by
    intro d h
    unfold Decoder.readImage
    rw [decide_eq_true h]; rfl
  rcases Nat.eq_zero_or_pos n with hn | hn
  · subst hn
    have h0 : buf = [] := List.eq_nil_of_length_eq_zero (by rw [hbuf]; simp)
    refine ⟨[], ?_, by simp, fun x y hx => absurd hx (by omega)⟩
    rw [hunf ⟨data ++ rest, 0, m, v, 0⟩ hassert]
    subst h0
    rw [chunksOf_nil (by omega)]; rfl
  · have h16 : 4 * n * (4 * m) * v.ch = m * (v.decodedBytes * n) := by
      rw [decodedBytes_eq]; ring
    obtain ⟨out, h1, h2, h3⟩ := scanLoop (v := v) (n := n) (hb := m) m (data := data) (rest := rest) (buf := buf) (acc := []) (row := 0)
      (by rw [hd]; ring) (by rw [hbuf, h16]) hn (by omega)
    refine ⟨out, ?_, by rw [h2, hbuf], ?_⟩
    · rw [hunf ⟨data ++ rest, n, m, v, 0⟩ hassert]
      simp only [Decoder.scanlineBytes]
      rw [h1]; rfl
    · intro x y hx hy
      obtain ⟨blk, b1, b2⟩ := h3 (y / 4) (by omega) (x / 4) (by omega)
      refine ⟨blk, b1, fun c hc => ?_⟩
      have hk : x % 4 * v.ch + c < v.line := by
        have := Nat.mul_le_mul_right v.ch (show x % 4 + 1 ≤ 4 by omega)
        rw [Nat.add_mul, Nat.one_mul] at this
        rw [Variant.line]; omega
      have := b2 (y % 4) (by omega) (x % 4 * v.ch + c) hk
      have i1 : y / 4 * (v.decodedBytes * n) + ((n * (y % 4) + x / 4) * v.line + (x % 4 * v.ch + c)) =
          ((4 * (y / 4) + y % 4) * (4 * n) + (4 * (x / 4) + x % 4)) * v.ch + c := by
        rw [decodedBytes_eq, Variant.line]; ring
      have i2 : y % 4 * v.line + (x % 4 * v.ch + c) = (4 * (y % 4) + x % 4) * v.ch + c := by
        rw [Variant.line]; ring
      rw [i1, i2, Nat.div_add_mod, Nat.div_add_mod] at this
      exact this

end Dxt
end Verif
