import Verif.Model.GifFrames
import Verif.Props.GifFile

/-!
# C129: sequences of frames, and GIF files encoded again
-/

namespace Verif
namespace Gif
open GifSpec ImageBuffer

/-- What the encoder looks at in a frame. -/
def Frame.given (f : Frame) : ImageBuffer UInt8 4 × Delay := (f.buffer, f.delay)

/-- **C129** `try_encode_frames` of frames without an error is `encode_frames` of them: the same result, or panic, and the same encoder afterwards. -/
theorem C129_try_encode (c : Crate) (s : Encoder) (fs : List Frame) :
    (s.tryEncodeFrames c (fs.map .ok)).map (fun r => (r.1, r.2.1)) = s.encodeFrames c (fs.map Frame.given) := by
  induction fs generalizing s with
  | nil => rfl
  | cons f fs ih =>
    simp only [List.map_cons, Encoder.tryEncodeFrames, Encoder.encodeFrames, Frame.given]
    cases e : s.encodeFrame c f.buffer f.delay with
    | error e' => rfl
    | ok r =>
      obtain ⟨r, s'⟩ := r
      cases r with
      | error e' => rfl
      | ok u => exact ih s'

/-- **C129** With an error in the sequence: the frames before it are encoded as `encode_frames` does; if that succeeds the error is returned, nothing more
is written and nothing after the error is asked for; otherwise the result is the one of encoding the frames before it. -/
theorem C129_try_encode_error (c : Crate) (s : Encoder) (fs : List Frame) (e : Err) (rest : List (Except Err Frame)) :
    (∀ s', s.encodeFrames c (fs.map Frame.given) = .ok (.ok (), s') →
      s.tryEncodeFrames c (fs.map .ok ++ .error e :: rest) = .ok (.error e, s', rest)) ∧
    (∀ e' s', s.encodeFrames c (fs.map Frame.given) = .ok (.error e', s') →
      ∃ rest', s.tryEncodeFrames c (fs.map .ok ++ .error e :: rest) = .ok (.error e', s', rest')) ∧
    (s.encodeFrames c (fs.map Frame.given) = panicR → s.tryEncodeFrames c (fs.map .ok ++ .error e :: rest) = panicR) := by
  induction fs generalizing s with
  | nil =>
    refine ⟨fun s' h => ?_, fun e' s' h => ?_, fun h => ?_⟩
    · cases h; rfl
    · cases h
    · cases h
  | cons f fs ih =>
    simp only [List.map_cons, List.cons_append, Encoder.tryEncodeFrames, Encoder.encodeFrames, Frame.given]
    cases hr : s.encodeFrame c f.buffer f.delay with
    | error e' =>
      refine ⟨fun s' h => ?_, fun e' s' h => ?_, fun h => by cases h; rfl⟩
      · cases h
      · cases h
    | ok r =>
      obtain ⟨r, s1⟩ := r
      cases r with
      | error e1 =>
        refine ⟨fun s' h => ?_, fun e' s' h => ?_, fun h => ?_⟩
        · cases h
        · cases h; exact ⟨_, rfl⟩
        · cases h
      | ok u => exact ih s1

/-- **C129** `collect_frames` returns all frames in order if none is an error, and otherwise the first error, without asking for anything after it. -/
theorem C129_collect (fs : List Frame) :
    collectFrames [] (fs.map .ok) = (.ok fs, []) ∧
    ∀ e rest, collectFrames [] (fs.map .ok ++ .error e :: rest) = (.error e, rest) := by
  have key : ∀ (fs done : List Frame) (tail : List (Except Err Frame)), collectFrames done (fs.map .ok ++ tail) = collectFrames (done ++ fs) tail := by
    intro fs
    induction fs with
    | nil => intro done tail; rw [List.append_nil]; rfl
    | cons f fs ih =>
      intro done tail
      rw [List.map_cons, List.cons_append]
      show collectFrames (done ++ [f]) (fs.map .ok ++ tail) = _
      rw [ih, List.append_assoc]
      rfl
  refine ⟨?_, fun e rest => ?_⟩
  · have := key fs [] []
    rw [List.append_nil] at this
    rw [this]
    rfl
  · rw [key]
    rfl

/-- A canvas as a GIF can show it: fully transparent pixels have no colour. -/
def plain (c : Canvas) : Canvas := fun x y => if (c x y).2.2.2 = 0 then transparent else c x y

/-- **C129** A GIF file that is decoded and encoded again shows the same animation. Whatever readable frames the file has, within the limits: every item of
`into_frames` is a frame, `try_encode_frames` of them on a fresh encoder succeeds, and - if the crate stores and quantises pixels so that the pictures of
this animation do not change - the frames of the new file are, one by one, the pictures of the old one, of the same size and with the same delay. -/
theorem C129_transcode (d : Decoder) (hw : d.reader.width < 2 ^ 16) (hh : d.reader.height < 2 ^ 16)
    (evs : List (Info × List UInt8)) (h0 : evs ≠ []) (hev : d.reader.events = evs.map fun e => .frame e.1 (.ok e.2))
    (hok : ∀ e ∈ evs, e.1.Ok e.2) (hfit : Fits d.limits 0 d.reader.width d.reader.height)
    (hall : ∀ e ∈ evs, Allowed d.limits d.reader.width d.reader.height e.1)
    (speed : Int) (hs : 1 ≤ speed ∧ speed ≤ 30) (q : List UInt8 → List UInt8) (hq : ∀ l, (q l).length = l.length) :
    ∃ (fs : List Frame) (s s' : Encoder) (out : Out),
      (Iter.new d).take (evs.length + 1) = .ok (fs.map (fun f => some (.ok f)) ++ [none]) ∧
      Encoder.newWithSpeed speed = .ok s ∧
      s.tryEncodeFrames .faultless (fs.map .ok) = .ok (.ok (), s', []) ∧ s'.gif = some out ∧
      ((∀ f ∈ fs, q f.buffer.data = f.buffer.data) →
        ∃ items, (Iter.new ⟨out.readBack q, ⟨none, none, none⟩⟩).take (evs.length + 1) = .ok items ∧ items.length = evs.length + 1 ∧
        items[evs.length]? = some none ∧
        ∀ k e, evs[k]? = some e → ∃ r, items[k]? = some (some (.ok r)) ∧ r.delay = ⟨10 * e.1.delay, 1⟩ ∧
          Shows r.buffer d.reader.width d.reader.height
            (plain (picture ((evs.take k).map fun e => frameOf e.1 e.2) (frameOf e.1 e.2)))) := by
  have hevOk : ∀ e ∈ d.reader.events, e.Ok := by
    intro e he
    rw [hev] at he
    obtain ⟨e', h1, rfl⟩ := List.mem_map.1 he
    exact hok e' h1
  obtain ⟨items, e1, e2, e3, -⟩ := C76_frames d hw hh hevOk (evs.length + 1)
  have e3 := e3 hfit
  have hplayed : ∀ k, played d.limits d.reader.width d.reader.height (d.reader.events.take k) = (evs.take k).map fun e => frameOf e.1 e.2 := by
    intro k
    rw [hev, ← List.map_take]
    have : ∀ l : List (Info × List UInt8), (∀ e ∈ l, e ∈ evs) →
        played d.limits d.reader.width d.reader.height (l.map fun e => .frame e.1 (.ok e.2)) = l.map fun e => frameOf e.1 e.2 := by
      intro l hl
      induction l with
      | nil => rfl
      | cons e l ih =>
        rw [List.map_cons, played_cons, ih fun e' he' => hl e' (List.mem_cons_of_mem _ he'), List.map_cons]
        have : played d.limits d.reader.width d.reader.height [.frame e.1 (.ok e.2)] = [frameOf e.1 e.2] := by
          unfold played
          simp only [List.filterMap_cons, List.filterMap_nil]
          rw [if_pos (hall e (hl e List.mem_cons_self))]
        rw [this]
        rfl
    exact this _ fun e he => List.mem_of_mem_take he
  -- the frames
  have hframe : ∀ k, (hk : k < evs.length) → ∃ f : Frame, items[k]? = some (some (.ok f)) ∧
      Shows f.buffer d.reader.width d.reader.height (picture ((evs.take k).map fun e => frameOf e.1 e.2) (frameOf evs[k].1 evs[k].2)) ∧
      f.delay = ⟨10 * evs[k].1.delay, 1⟩ := by
    intro k hk
    have := e3 k items[k] (List.getElem?_eq_getElem (by omega))
    rw [hev, List.getElem?_map, List.getElem?_eq_getElem hk] at this
    dsimp only [Option.map_some] at this
    rw [← hev, hplayed] at this
    obtain ⟨f, f1, f2, -, -, f5⟩ := this.1 (hall _ (List.getElem_mem hk))
    exact ⟨f, by rw [List.getElem?_eq_getElem (by omega), f1], f2, f5⟩
  have hlast : items[evs.length]? = some none := by
    have := e3 evs.length items[evs.length] (List.getElem?_eq_getElem (by omega))
    rw [hev, List.getElem?_eq_none (by simp)] at this
    dsimp only at this
    rw [List.getElem?_eq_getElem (by omega), this]
  obtain ⟨fs, hfs, hitems⟩ : ∃ fs : List Frame, fs.length = evs.length ∧ ∀ (k : Nat) (f : Frame), fs[k]? = some f → items[k]? = some (some (.ok f)) := by
    have : ∀ n, n ≤ evs.length → ∃ fs : List Frame, fs.length = n ∧ ∀ (k : Nat) (f : Frame), fs[k]? = some f → items[k]? = some (some (.ok f)) := by
      intro n
      induction n with
      | zero => exact fun _ => ⟨[], rfl, fun k f h => by simp at h⟩
      | succ n ih =>
        intro hn
        obtain ⟨fs, i1, i2⟩ := ih (by omega)
        obtain ⟨f, f1, -⟩ := hframe n (by omega)
        refine ⟨fs ++ [f], by simp [i1], fun k g hg => ?_⟩
        rcases Nat.lt_or_ge k fs.length with h | h
        · rw [List.getElem?_append_left h] at hg; exact i2 k g hg
        · rw [List.getElem?_append_right h] at hg
          have : k - fs.length = 0 := by
            rcases Nat.eq_zero_or_pos (k - fs.length) with h | h
            · exact h
            · rw [List.getElem?_eq_none (by simp; omega)] at hg; cases hg
          rw [this] at hg
          cases hg
          rw [show k = n by omega]
          exact f1
    exact this _ (Nat.le_refl _)
  have hitems' : items = fs.map (fun f => some (.ok f)) ++ [none] := by
    apply List.ext_getElem?
    intro k
    rcases Nat.lt_or_ge k evs.length with h | h
    · rw [List.getElem?_append_left (by simp; omega), List.getElem?_map, List.getElem?_eq_getElem (l := fs) (by omega)]
      exact hitems k _ (List.getElem?_eq_getElem (by omega))
    · rcases Nat.eq_or_lt_of_le h with h | h
      · subst h
        rw [hlast, List.getElem?_append_right (by simp [hfs])]
        simp [hfs]
      · rw [List.getElem?_eq_none (by omega), List.getElem?_eq_none (by simp; omega)]
  have hf : ∀ k, (hk : k < evs.length) → ∃ f, fs[k]? = some f ∧
      Shows f.buffer d.reader.width d.reader.height (picture ((evs.take k).map fun e => frameOf e.1 e.2) (frameOf evs[k].1 evs[k].2)) ∧
      f.delay = ⟨10 * evs[k].1.delay, 1⟩ := by
    intro k hk
    obtain ⟨f, f1, f2, f3⟩ := hframe k hk
    refine ⟨f, ?_, f2, f3⟩
    have := hitems k fs[k] (List.getElem?_eq_getElem (by omega))
    rw [f1] at this
    rw [List.getElem?_eq_getElem (by omega)]
    simp only [Option.some.injEq, Except.ok.injEq] at this
    rw [this]
  have henc : ∀ f ∈ fs, Encodable f.given ∧ f.buffer.width = d.reader.width ∧ f.buffer.height = d.reader.height := by
    intro f hm
    obtain ⟨k, hk, rfl⟩ := List.getElem_of_mem hm
    obtain ⟨g, g1, g2, g3⟩ := hf k (by omega)
    rw [List.getElem?_eq_getElem hk] at g1
    cases g1
    refine ⟨⟨?_, ?_, ?_, ?_⟩, g2.width, g2.height⟩
    · show fs[k].buffer.width < _; rw [g2.width]; exact hw
    · show fs[k].buffer.height < _; rw [g2.height]; exact hh
    · show fs[k].buffer.data.length = fs[k].buffer.width * fs[k].buffer.height * 4
      rw [g2.tight, g2.width, g2.height]
    · show fs[k].delay.denom ≠ 0; rw [g3]; exact Nat.one_ne_zero
  -- encoding
  obtain ⟨f0, ft, hft⟩ : ∃ f0 ft, fs = f0 :: ft := by
    cases h : fs with
    | nil =>
      rw [h] at hfs
      exact absurd (List.eq_nil_of_length_eq_zero hfs.symm) h0
    | cons a b => exact ⟨a, b, rfl⟩
  obtain ⟨s, hs1, hs2⟩ := C78_frames speed hs none f0.given (ft.map Frame.given) (by
    intro g hg
    rw [← List.map_cons, ← hft] at hg
    obtain ⟨f, hm, rfl⟩ := List.mem_map.1 hg
    exact (henc f hm).1)
  obtain ⟨s', hs3, hs4⟩ := hs2
  dsimp only at hs3
  rw [← List.map_cons, ← hft] at hs3
  have htry : s.tryEncodeFrames .faultless (fs.map .ok) = .ok (.ok (), s', []) := by
    have := C129_try_encode .faultless s fs
    rw [hs3] at this
    have hrest : ∀ (fs : List Frame) (s s' : Encoder) rest,
        s.tryEncodeFrames .faultless (fs.map .ok) = .ok (.ok (), s', rest) → rest = [] := by
      intro fs
      induction fs with
      | nil => intro s s' rest h; cases h; rfl
      | cons f fs ih =>
        intro s s' rest h
        simp only [List.map_cons, Encoder.tryEncodeFrames] at h
        cases hr : s.encodeFrame .faultless f.buffer f.delay with
        | error e' => rw [hr] at h; cases h
        | ok r =>
          rw [hr] at h
          obtain ⟨r, s1⟩ := r
          cases r with
          | error e' => cases h
          | ok u => exact ih s1 s' rest h
    cases ht : s.tryEncodeFrames .faultless (fs.map .ok) with
    | error e => rw [ht] at this; cases this
    | ok r =>
      obtain ⟨a, b, rest⟩ := r
      rw [ht] at this
      have this : (Except.ok (a, b) : R _) = .ok (.ok (), s') := this
      cases this
      rw [hrest fs s s' rest ht]
  refine ⟨fs, s, s', _, ?_, hs1, htry, hs4, fun hqf => ?_⟩
  · rw [e1, hitems']
  obtain ⟨ritems, r1, r2, r3⟩ := C78_roundtrip q hq f0.given (ft.map Frame.given) (by
    intro g hg
    rw [← List.map_cons, ← hft] at hg
    obtain ⟨f, hm, rfl⟩ := List.mem_map.1 hg
    exact (henc f hm).1) ⟨f0.given.1.width, f0.given.1.height, _, (f0.given :: ft.map Frame.given).map written⟩ ⟨rfl, rfl, rfl⟩ (evs.length + 1)
  rw [← List.map_cons, ← hft] at r3
  refine ⟨ritems, r1, r2, ?_, ?_⟩
  · have := r3 evs.length ritems[evs.length] (List.getElem?_eq_getElem (by omega))
    rw [List.getElem?_eq_none (by simp [hfs])] at this
    dsimp only at this
    rw [List.getElem?_eq_getElem (by omega), this]
  · intro k e he
    obtain ⟨hk, rfl⟩ := List.getElem?_eq_some_iff.1 he
    obtain ⟨f, f1, f2, f3⟩ := hf k hk
    have := r3 k ritems[k] (List.getElem?_eq_getElem (by omega))
    rw [List.getElem?_map, f1] at this
    dsimp only [Option.map_some] at this
    obtain ⟨r, g1, g2, -, -, g5⟩ := this
    have hfm : f ∈ fs := List.mem_of_getElem? f1
    obtain ⟨-, hw0, hh0⟩ := henc f0 (by rw [hft]; exact List.mem_cons_self)
    obtain ⟨-, hwf, hhf⟩ := henc f hfm
    refine ⟨r, by rw [List.getElem?_eq_getElem (by omega), g1], ?_, ?_⟩
    · rw [g5]
      show (⟨10 * min (f.delay.numer / f.delay.denom / 10) 65535, 1⟩ : Delay) = _
      rw [f3]
      have := (hok _ (List.getElem_mem hk)).delay
      dsimp only
      rw [Nat.div_one, Nat.mul_div_cancel_left _ (by decide), Nat.min_eq_left (by omega)]
    · have g2 : Shows r.buffer f0.buffer.width f0.buffer.height (shown q f.given) := g2
      rw [hw0, hh0] at g2
      refine ⟨g2.inv, g2.width, g2.height, g2.tight, fun x y hx hy => ?_⟩
      rw [g2.pixels x y hx hy]
      congr 2
      unfold shown plain Frame.given
      dsimp only
      rw [hqf f hfm, hwf, hhf, shows_colour f2 hx hy]
      by_cases ha : (picture ((evs.take k).map fun e => frameOf e.1 e.2) (frameOf evs[k].1 evs[k].2) x y).2.2.2 = 0
      · rw [if_pos ha, if_neg (fun h => h.2.2 ha)]
      · rw [if_neg ha, if_pos ⟨hx, hy, ha⟩]

/-- **C129** is false for frames with a position: a frame that was made with an offset is written as if it had none, so two different animations give the
same file. -/
theorem C129_position_false : ¬ ∀ (s : Encoder) (f g : Frame) (s' : Encoder), Encoder.newWithSpeed 1 = .ok s →
    s.tryEncodeFrames .faultless [.ok f] = .ok (.ok (), s', []) → s.tryEncodeFrames .faultless [.ok g] = .ok (.ok (), s', []) →
    f.left = g.left ∧ f.top = g.top := by
  intro h
  have := h ⟨true, none, 1, none⟩ ⟨⟨1, 1, [1, 2, 3, 255]⟩, 0, 0, ⟨1, 1⟩⟩ ⟨⟨1, 1, [1, 2, 3, 255]⟩, 5, 7, ⟨1, 1⟩⟩ _ rfl rfl rfl
  exact absurd this.1 (by decide)

/-- The film of C76 without the unreadable frame meets the hypotheses. -/
example : ∃ (d : Decoder) (evs : List (Info × List UInt8)), d.reader.width < 2 ^ 16 ∧ d.reader.height < 2 ^ 16 ∧ evs.length = 3 ∧
    d.reader.events = (evs.map fun e => .frame e.1 (.ok e.2)) ∧ (∀ e ∈ evs, e.1.Ok e.2) ∧ Fits d.limits 0 d.reader.width d.reader.height ∧
    ∀ e ∈ evs, Allowed d.limits d.reader.width d.reader.height e.1 := by
  refine ⟨⟨⟨2, 1, [(⟨0, 0, 2, 1, .keep, 5⟩, [255, 0, 0, 255, 0, 0, 0, 0]), (⟨1, 0, 1, 1, .background, 6⟩, [0, 255, 0, 255]),
    (⟨0, 0, 1, 1, .any, 7⟩, [9, 9, 9, 0])].map fun e : Info × List UInt8 => Event.frame e.1 (.ok e.2)⟩, ⟨none, none, none⟩⟩, _, by decide, by decide, rfl, rfl, ?_, ?_, ?_⟩
  · intro e he
    simp only [List.mem_cons, List.not_mem_nil, or_false] at he
    rcases he with rfl | rfl | rfl <;> exact ⟨by decide, by decide, by decide, by decide, by decide, rfl⟩
  · unfold Fits; simp
  · intro e _
    unfold Allowed Fits
    simp

end Gif
end Verif
