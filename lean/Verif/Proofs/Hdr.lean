import Verif.Model.Hdr
import Verif.Proofs.Outcome
import Verif.Proofs.Pnm
import Verif.Proofs.Prefix

/-!
# Lemmas about Radiance HDR scanlines
-/

namespace Verif
namespace Hdr

/-- The run-length format of a component of a scanline: `RleOf code data`. A count of 129 to 255 is followed by a byte that is
repeated `count - 128` times, a count of 1 to 128 by that many bytes. -/
inductive RleOf : List UInt8 → List UInt8 → Prop
  | nil : RleOf [] []
  | run (len : Nat) (c : UInt8) (code data : List UInt8) : 1 ≤ len → len ≤ 127 → RleOf code data →
      RleOf (UInt8.ofNat (128 + len) :: c :: code) (List.replicate len c ++ data)
  | lit (vals code data : List UInt8) : 1 ≤ vals.length → vals.length ≤ 128 → RleOf code data →
      RleOf (UInt8.ofNat vals.length :: (vals ++ code)) (vals ++ data)

/-! ## The encoder -/

/-- The number of samples that an item stands for. -/
def RunOrNot.len : RunOrNot → Nat
  | run _ len => len
  | norun _ len => len

/-- The item describes the samples from `start` on. -/
def ItemOk (data : List UInt8) (start : Nat) : RunOrNot → Prop
  | .run c len => 1 ≤ len ∧ len ≤ 127 ∧ start + len ≤ data.length ∧ (data.drop start).take len = List.replicate len c
  | .norun idx len => idx = start ∧ 1 ≤ len ∧ len ≤ 128 ∧ start + len ≤ data.length

/-- A state of the combining iterator. -/
def Valid (data : List UInt8) (cur : Nat) : Option RunOrNot → Prop
  | none => cur ≤ data.length
  | some (.run c len) => cur ≤ data.length ∧ len ≤ cur ∧ ItemOk data (cur - len) (.run c len)
  | some (.norun idx len) => cur ≤ data.length ∧ len ≤ cur ∧ len < 128 ∧ ItemOk data (cur - len) (.norun idx len)

/-- The position up to which samples have been delivered. -/
def startOf (cur : Nat) : Option RunOrNot → Nat
  | none => cur
  | some it => cur - it.len

theorem takeWhile_eq_replicate (cv : UInt8) : ∀ l : List UInt8,
    l.takeWhile (· == cv) = List.replicate (l.takeWhile (· == cv)).length cv
  | [] => rfl
  | a :: l => by
    by_cases h : a = cv
    · subst h
      have ih := takeWhile_eq_replicate a l
      simp only [List.takeWhile_cons, BEq.rfl, if_true, List.length_cons, List.replicate_succ]
      rw [← ih]
    · simp [h]

theorem runNext_spec (data : List UInt8) (cur : Nat) (h : cur ≤ data.length) :
    (cur = data.length ∧ runNext data cur = .ok (none, cur)) ∨
    (∃ it, runNext data cur = .ok (some it, cur + it.len) ∧ ItemOk data cur it ∧ cur < data.length ∧
      (∀ idx len, it = .norun idx len → len ≤ 2)) := by
  by_cases hc : cur = data.length
  · left; exact ⟨hc, by unfold runNext; rw [if_pos hc]⟩
  · right
    have hlt : cur < data.length := by omega
    have hcv : data[cur]? = some data[cur] := List.getElem?_eq_getElem hlt
    generalize hn : (((data.drop cur).takeWhile (· == data[cur])).take 127).length = n
    have hlen : n = min 127 ((data.drop cur).takeWhile (· == data[cur])).length := by rw [← hn, List.length_take]
    have hdrop : data.drop cur = data[cur] :: data.drop (cur + 1) := List.drop_eq_getElem_cons hlt
    have hpos : 1 ≤ ((data.drop cur).takeWhile (· == data[cur])).length := by
      rw [hdrop, List.takeWhile_cons]; simp
    have hle : ((data.drop cur).takeWhile (· == data[cur])).length ≤ data.length - cur := by
      have := (List.takeWhile_prefix (· == data[cur]) (l := data.drop cur)).length_le
      rwa [List.length_drop] at this
    have htake : (data.drop cur).take n = List.replicate n data[cur] := by
      have hp := List.takeWhile_prefix (· == data[cur]) (l := data.drop cur)
      have h1 := takeWhile_eq_replicate data[cur] (data.drop cur)
      generalize (data.drop cur).takeWhile (· == data[cur]) = w at *
      obtain ⟨t, ht⟩ := hp
      rw [← ht, List.take_append_of_le_length (by omega), h1, List.take_replicate]
      congr 1; omega
    have hrun : runNext data cur = .ok (some (if n > 2 then .run data[cur] n else .norun cur n), cur + n) := by
      unfold runNext
      rw [if_neg hc, hcv]
      show Except.ok _ = _
      rw [hn]
    by_cases h2 : n > 2
    · rw [if_pos h2] at hrun
      refine ⟨.run data[cur] n, hrun, ⟨by omega, by omega, by omega, htake⟩, hlt, ?_⟩
      intro idx len he; cases he
    · rw [if_neg h2] at hrun
      refine ⟨.norun cur n, hrun, ⟨rfl, by omega, by omega, by omega⟩, hlt, ?_⟩
      intro idx len he; cases he; omega

/-- What one call of the combining iterator does. -/
theorem combineLoop_spec (data : List UInt8) : ∀ fuel cur prev, Valid data cur prev → data.length - cur + 2 ≤ fuel →
    (combineLoop data fuel cur prev = .ok (none, cur, none) ∧ startOf cur prev = data.length) ∨
    (∃ it cur' prev', combineLoop data fuel cur prev = .ok (some it, cur', prev') ∧ Valid data cur' prev' ∧
      ItemOk data (startOf cur prev) it ∧ startOf cur' prev' = startOf cur prev + it.len) := by
  intro fuel
  induction fuel with
  | zero => intro cur prev _ h; omega
  | succ fuel ih =>
    intro cur prev hv hf
    match prev, hv with
    | some (.run c len), hv =>
      right
      exact ⟨_, _, _, rfl, hv.1, hv.2.2, by have := hv.2.1; show cur = cur - len + len; omega⟩
    | some (.norun idx len), hv =>
      obtain ⟨hcl, hlc, hl128, hi, hl1, -, hle⟩ := hv
      right
      rcases runNext_spec data cur hcl with ⟨hce, hr⟩ | ⟨it, hr, hok, hlt, h2⟩
      · refine ⟨.norun idx len, cur, none, ?_, hcl, ⟨hi, hl1, by omega, hle⟩, ?_⟩
        · unfold combineLoop; rw [hr]; rfl
        · show cur = cur - len + len; omega
      · match it, hr, hok, h2 with
        | .run c len1, hr, hok, _ =>
          refine ⟨.norun idx len, cur + len1, some (.run c len1), ?_, ?_, ⟨hi, hl1, by omega, hle⟩, ?_⟩
          · unfold combineLoop; rw [hr]; rfl
          · refine ⟨hok.2.2.1, by omega, ?_⟩
            rw [show cur + len1 - len1 = cur by omega]; exact hok
          · show cur + len1 - len1 = cur - len + len; omega
        | .norun j len1, hr, hok, h2 =>
          have hl2 := h2 _ _ rfl
          obtain ⟨hj, hl11, -, hle1⟩ := hok
          have hstep : combineLoop data (fuel + 1) cur (some (.norun idx len)) =
              (if len + len1 = 128 then .ok (some (.norun idx (len + len1)), cur + len1, none)
              else if len + len1 > 128 then
                .ok (some (.norun idx 128), cur + len1, some (.norun (idx + 128) (len + len1 - 128)))
              else combineLoop data fuel (cur + len1) (some (.norun idx (len + len1)))) := by
            conv => lhs; unfold combineLoop
            rw [hr]; rfl
          rw [hstep]
          split
          · have hle' : startOf cur (some (.norun idx len)) + len = cur := by show cur - len + len = cur; omega
            refine ⟨_, _, _, rfl, hle1, ⟨hi, by omega, by omega, by omega⟩, ?_⟩
            show cur + len1 = cur - len + (len + len1); omega
          · split
            · have hle' : startOf cur (some (.norun idx len)) + len = cur := by show cur - len + len = cur; omega
              refine ⟨_, _, _, rfl, ⟨hle1, by omega, by omega, by omega, by omega, by omega, by omega⟩,
                ⟨hi, by omega, by omega, by omega⟩, ?_⟩
              show cur + len1 - (len + len1 - 128) = cur - len + 128; omega
            · have hv' : Valid data (cur + len1) (some (.norun idx (len + len1))) :=
                ⟨hle1, by omega, by omega, by omega, by omega, by omega, by omega⟩
              have hs : startOf (cur + len1) (some (.norun idx (len + len1))) = startOf cur (some (.norun idx len)) := by
                show cur + len1 - (len + len1) = cur - len; omega
              rcases ih (cur + len1) _ hv' (by omega) with ⟨_, he⟩ | h
              · exfalso
                have : startOf (cur + len1) (some (.norun idx (len + len1))) = cur + len1 - (len + len1) := rfl
                omega
              · rw [hs] at h; exact h
    | none, hv =>
      rcases runNext_spec data cur hv with ⟨hce, hr⟩ | ⟨it, hr, hok, hlt, h2⟩
      · left; exact ⟨by unfold combineLoop; rw [hr]; rfl, hce⟩
      · match it, hr, hok, h2 with
        | .run c len1, hr, hok, _ =>
          right
          refine ⟨.run c len1, cur + len1, none, ?_, hok.2.2.1, hok, rfl⟩
          unfold combineLoop; rw [hr]; rfl
        | .norun j len1, hr, hok, h2 =>
          have hl2 := h2 _ _ rfl
          obtain ⟨hj, hl11, -, hle1⟩ := hok
          have hstep : combineLoop data (fuel + 1) cur none = combineLoop data fuel (cur + len1) (some (.norun j len1)) := by
            conv => lhs; unfold combineLoop
            rw [hr]; rfl
          rw [hstep]
          have hv' : Valid data (cur + len1) (some (.norun j len1)) :=
            ⟨hle1, by omega, by omega, by omega, by omega, by omega, by omega⟩
          have hs : startOf (cur + len1) (some (.norun j len1)) = startOf cur none := by
            show cur + len1 - len1 = cur; omega
          rcases ih (cur + len1) _ hv' (by omega) with ⟨_, he⟩ | h
          · exfalso
            have : startOf cur none = cur := rfl
            omega
          · right; rw [hs] at h; exact h

theorem compressLoop_spec (data : List UInt8) : ∀ fuel cur prev rle, Valid data cur prev →
    data.length - startOf cur prev < fuel → startOf cur prev ≤ data.length →
    ∃ code, compressLoop data fuel cur prev rle = .ok (rle ++ code) ∧ RleOf code (data.drop (startOf cur prev)) := by
  intro fuel
  induction fuel with
  | zero => intro cur prev rle _ h; omega
  | succ fuel ih =>
    intro cur prev rle hv hf hst
    have hcur : cur ≤ data.length := by
      match prev, hv with
      | none, hv => exact hv
      | some (.run _ _), hv => exact hv.1
      | some (.norun _ _), hv => exact hv.1
    rcases combineLoop_spec data (data.length + 2) cur prev hv (by omega) with ⟨hc, hs⟩ | ⟨it, cur', prev', hc, hv', hok, hs⟩
    · refine ⟨[], ?_, ?_⟩
      · unfold compressLoop; rw [hc, List.append_nil]; rfl
      · rw [hs, List.drop_length]; exact .nil
    · have hstep : compressLoop data (fuel + 1) cur prev rle =
          (rleItem data it >>= fun b => compressLoop data fuel cur' prev' (rle ++ b)) := by
        conv => lhs; unfold compressLoop
        rw [hc]; rfl
      have hdrop : data.drop (startOf cur prev) =
          (data.drop (startOf cur prev)).take it.len ++ data.drop (startOf cur' prev') := by
        rw [hs, ← List.drop_drop, List.take_append_drop]
      rw [hstep]
      match it, hok, hs, hdrop with
      | .run c len, hok, hs, hdrop =>
        obtain ⟨h1, h127, hle, htake⟩ := hok
        have hs' : startOf cur' prev' = startOf cur prev + len := hs
        obtain ⟨code, hcode, hr⟩ := ih cur' prev' (rle ++ [UInt8.ofNat (128 + len), c]) hv' (by omega) (by omega)
        refine ⟨UInt8.ofNat (128 + len) :: c :: code, ?_, ?_⟩
        · have : rleItem data (.run c len) = .ok [UInt8.ofNat (128 + len), c] := by
            show (assertR (decide (len ≤ 127)) >>= fun _ => addC 8 128 (len % 256) >>= fun h => Except.ok [UInt8.ofNat h, c]) = _
            rw [decide_eq_true h127, assertR_true, ok_bind, Nat.mod_eq_of_lt (by omega), addC_ok (by omega)]
            rfl
          rw [this, ok_bind, hcode, List.append_assoc]; rfl
        · have hdrop' : data.drop (startOf cur prev) = List.replicate len c ++ data.drop (startOf cur' prev') := by
            rw [hdrop]; congr 1
          rw [hdrop']; exact .run len c code _ h1 h127 hr
      | .norun idx len, hok, hs, hdrop =>
        obtain ⟨hi, h1, h128, hle⟩ := hok
        have hs' : startOf cur' prev' = startOf cur prev + len := hs
        have hl : ((data.drop (startOf cur prev)).take len).length = len := by
          rw [List.length_take, List.length_drop]; omega
        obtain ⟨code, hcode, hr⟩ :=
          ih cur' prev' (rle ++ (UInt8.ofNat len :: (data.drop (startOf cur prev)).take len)) hv' (by omega) (by omega)
        refine ⟨UInt8.ofNat len :: ((data.drop (startOf cur prev)).take len ++ code), ?_, ?_⟩
        · have : rleItem data (.norun idx len) = .ok (UInt8.ofNat len :: (data.drop (startOf cur prev)).take len) := by
            show (assertR (decide (len ≤ 128)) >>= fun _ => sliceR data idx (idx + len) >>= fun d =>
              Except.ok (UInt8.ofNat len :: d)) = _
            rw [decide_eq_true h128, assertR_true, ok_bind, hi]
            unfold sliceR
            rw [if_pos (by omega), show startOf cur prev + len - startOf cur prev = len by omega]
            rfl
          rw [this, ok_bind, hcode, List.append_assoc]; rfl
        · have hdrop' : data.drop (startOf cur prev) =
              (data.drop (startOf cur prev)).take len ++ data.drop (startOf cur' prev') := hdrop
          have := RleOf.lit ((data.drop (startOf cur prev)).take len) code _ (by omega) (by omega) hr
          rw [hl, ← hdrop'] at this
          exact this

/-- `rle_compress` produces a code for the data. -/
theorem rleCompress_spec (data : List UInt8) (h : data ≠ []) : ∃ code, rleCompress data = .ok code ∧ RleOf code data := by
  unfold rleCompress
  rw [if_neg h]
  obtain ⟨code, h1, h2⟩ := compressLoop_spec data (data.length + 2) 0 none [] (Nat.zero_le _)
    (by show data.length - 0 < _; omega) (Nat.zero_le _)
  exact ⟨code, by rw [h1]; rfl, h2⟩

/-! ## The decoder of a component -/

theorem setValues_spec (set : Rgbe → UInt8 → Rgbe) : ∀ (vs : List UInt8) (pre mid post : List Rgbe), vs.length = mid.length →
    setValues set pre.length vs (pre ++ mid ++ post) = .ok (pre ++ List.zipWith set mid vs ++ post) := by
  intro vs
  induction vs with
  | nil =>
    intro pre mid post h
    have : mid = [] := List.length_eq_zero_iff.1 h.symm
    subst this; rfl
  | cons v vs ih =>
    intro pre mid post h
    match mid, h with
    | m :: mid, h =>
      unfold setValues
      have hget : (pre ++ m :: mid ++ post)[pre.length]? = some m := by simp
      have hset : (pre ++ m :: mid ++ post).set pre.length (set m v) = (pre ++ [set m v]) ++ mid ++ post := by
        rw [List.append_assoc, List.set_append_right _ _ (Nat.le_refl _)]; simp
      rw [hget]
      show setValues set (pre.length + 1) vs _ = _
      rw [hset]
      have := ih (pre ++ [set m v]) mid post (by simpa using h)
      rw [List.length_append, List.length_singleton] at this
      rw [this]
      simp

theorem componentLoop_spec (set : Rgbe → UInt8 → Rgbe) {code data : List UInt8} (h : RleOf code data) :
    ∀ (fuel : Nat) (pre mid : List Rgbe) (rest : List UInt8), mid.length = data.length →
    code.length < fuel →
    componentLoop set (pre.length + data.length) fuel pre.length (pre ++ mid) (code ++ rest) =
      .ok (pre ++ List.zipWith set mid data, rest) := by
  induction h with
  | nil =>
    intro fuel pre mid rest hm hf
    have : mid = [] := List.length_eq_zero_iff.1 hm
    subst this
    match fuel, hf with
    | fuel + 1, _ => unfold componentLoop; simp
  | run len c code data h1 h127 _ ih =>
    intro fuel pre mid rest hm hf
    match fuel, hf with
    | fuel + 1, hf =>
      rw [List.length_append, List.length_replicate] at hm
      simp only [List.length_cons] at hf
      have hb : (UInt8.ofNat (128 + len)).toNat = 128 + len := by rw [UInt8.toNat_ofNat']; omega
      unfold componentLoop
      rw [if_pos (by rw [List.length_append, List.length_replicate]; omega)]
      show (if _ ≤ 128 then _ else _ : R _) = _
      rw [hb, if_neg (by omega), show 128 + len - 128 = len by omega,
        if_neg (by rw [List.length_append, List.length_replicate]; omega)]
      show (setValues set pre.length (List.replicate len (UInt8.ofNat c.toNat)) (pre ++ mid) >>= _) = _
      rw [UInt8.ofNat_toNat]
      have hsplit : mid = mid.take len ++ mid.drop len := (List.take_append_drop len mid).symm
      have hlt : (mid.take len).length = len := by rw [List.length_take]; omega
      have hsv := setValues_spec set (List.replicate len c) pre (mid.take len) (mid.drop len)
        (by rw [List.length_replicate, hlt])
      rw [List.append_assoc, ← hsplit] at hsv
      rw [hsv, ok_bind]
      have hz : (List.zipWith set (mid.take len) (List.replicate len c)).length = len := by
        rw [List.length_zipWith, hlt, List.length_replicate, Nat.min_self]
      have hi := ih fuel (pre ++ List.zipWith set (mid.take len) (List.replicate len c)) (mid.drop len) rest
        (by rw [List.length_drop]; omega) (by omega)
      rw [List.length_append, hz] at hi
      rw [List.length_append, List.length_replicate, ← Nat.add_assoc]
      refine hi.trans ?_
      congr 2
      conv => rhs; rw [hsplit]
      rw [List.zipWith_append (by rw [hlt, List.length_replicate]), List.append_assoc]
  | lit vals code data h1 h128 _ ih =>
    intro fuel pre mid rest hm hf
    match fuel, hf with
    | fuel + 1, hf =>
      rw [List.length_append] at hm
      simp only [List.length_cons, List.length_append] at hf
      have hb : (UInt8.ofNat vals.length).toNat = vals.length := by rw [UInt8.toNat_ofNat']; omega
      unfold componentLoop
      rw [if_pos (by rw [List.length_append]; omega)]
      show (if _ ≤ 128 then _ else _ : R _) = _
      rw [hb, if_pos h128, if_neg (by rw [List.length_append]; omega),
        show (vals ++ code).append rest = vals ++ (code ++ rest) from List.append_assoc .., readExact_append]
      show (setValues set pre.length vals (pre ++ mid) >>= _) = _
      have hsplit : mid = mid.take vals.length ++ mid.drop vals.length := (List.take_append_drop _ mid).symm
      have hlt : (mid.take vals.length).length = vals.length := by rw [List.length_take]; omega
      have hsv := setValues_spec set vals pre (mid.take vals.length) (mid.drop vals.length) hlt.symm
      rw [List.append_assoc, ← hsplit] at hsv
      rw [hsv, ok_bind]
      have hz : (List.zipWith set (mid.take vals.length) vals).length = vals.length := by
        rw [List.length_zipWith, hlt, Nat.min_self]
      have hi := ih fuel (pre ++ List.zipWith set (mid.take vals.length) vals) (mid.drop vals.length) rest
        (by rw [List.length_drop]; omega) (by omega)
      rw [List.length_append, hz] at hi
      rw [List.length_append, ← Nat.add_assoc]
      refine hi.trans ?_
      congr 2
      conv => rhs; rw [hsplit]
      rw [List.zipWith_append hlt, List.append_assoc]

/-- Decoding a component: whatever the buffer contained, the component of every pixel is set. -/
theorem decodeComponent_spec (set : Rgbe → UInt8 → Rgbe) {code data : List UInt8} (h : RleOf code data) (buf : List Rgbe)
    (hb : buf.length = data.length) (rest : List UInt8) :
    decodeComponent set buf.length buf (code ++ rest) = .ok (List.zipWith set buf data, rest) := by
  unfold decodeComponent
  have := componentLoop_spec set h ((code ++ rest).length + 1) [] buf rest hb (by rw [List.length_append]; omega)
  rw [List.length_nil, Nat.zero_add, List.nil_append, List.nil_append] at this
  rw [hb, this]

end Hdr
end Verif
