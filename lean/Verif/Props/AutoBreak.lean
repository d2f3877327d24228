import Verif.Model.AutoBreak

/-!
# The line breaking writer (C40)
-/

namespace Verif
namespace Pnm

/-! ## What an ideal run does -/

/-- One chunk: bytes of the finished lines and the current line. -/
def pureStep (cap : Nat) (st : List UInt8 × List UInt8) (c : List UInt8) : List UInt8 × List UInt8 :=
  if st.2 ≠ [] ∧ st.2.length + c.length > cap then (st.1 ++ st.2 ++ [10], c) else (st.1, st.2 ++ c)

def pureRun (cap : Nat) (st : List UInt8 × List UInt8) (cs : List (List UInt8)) : List UInt8 × List UInt8 :=
  cs.foldl (pureStep cap) st

theorem pureStep_prefix (cap : Nat) (st : List UInt8 × List UInt8) (c : List UInt8) :
    (st.1 ++ st.2) <+: ((pureStep cap st c).1 ++ (pureStep cap st c).2) := by
  unfold pureStep
  split
  · exact ⟨[10] ++ c, by simp⟩
  · exact ⟨c, by simp⟩

theorem pureRun_prefix (cap : Nat) (cs : List (List UInt8)) : ∀ st : List UInt8 × List UInt8,
    (st.1 ++ st.2) <+: ((pureRun cap st cs).1 ++ (pureRun cap st cs).2) := by
  induction cs with
  | nil => intro st; exact List.prefix_refl _
  | cons c cs ih => intro st; exact (pureStep_prefix cap st c).trans (ih _)

/-! ## The real run follows it -/

theorem flushLoop_spec (line : List UInt8) : ∀ (sched : List Resp) (written : Nat) (out : List UInt8),
    written ≤ line.length →
    let r := flushLoop line sched written out
    written ≤ r.2.1 ∧ r.2.1 ≤ line.length ∧ r.2.2.out = out ++ (line.drop written).take (r.2.1 - written) ∧
      (r.1 = none → r.2.1 = line.length ∧ r.2.2.sched.length ≤ sched.length) ∧
      (∀ e, r.1 = some e → e = .other ∧ r.2.2.sched.length < sched.length) ∧
      ((∀ x ∈ sched, ∃ n, x = .accept (n + 1)) → r.1 = none) ∧ (∀ x ∈ r.2.2.sched, x ∈ sched) := by
  intro sched
  induction sched with
  | nil =>
    intro written out hw
    simp only [flushLoop]
    split
    · refine ⟨by dsimp only; omega, by dsimp only; omega, ?_, ?_, ?_, ?_, ?_⟩
      · dsimp only
        rw [List.take_of_length_le (by rw [List.length_drop]; omega)]
      all_goals simp
    · have : written = line.length := by omega
      simp [this]
  | cons r s ih =>
    intro written out hw
    simp only [flushLoop]
    split
    · cases r with
      | accept n =>
        dsimp only
        split
        · refine ⟨by dsimp only; omega, by dsimp only; omega, by simp, by simp, ?_, ?_, ?_⟩
          · intro e he; injection he with he; exact ⟨he.symm, by simp⟩
          · intro h
            obtain ⟨m, hm⟩ := h (.accept n) (by simp)
            injection hm with hm
            omega
          · intro x hx; exact List.mem_cons_of_mem _ hx
        · obtain ⟨h1, h2, h3, h4, h5, h6, h7⟩ := ih (written + min n (line.length - written)) (out ++ (line.drop written).take n) (by omega)
          refine ⟨by omega, h2, ?_, ?_, ?_, ?_, ?_⟩
          · rw [h3, List.append_assoc]
            congr 1
            have : (line.drop written).take n = (line.drop written).take (min n (line.length - written)) := by
              rw [← List.length_drop, List.take_eq_take_iff]; omega
            generalize hR : flushLoop line s (written + min n (line.length - written)) (out ++ (line.drop written).take n) = r at *
            rw [this, ← List.drop_drop, ← List.take_add]
            congr 1; omega
          · intro h; have := h4 h; simp only [List.length_cons]; omega
          · intro e h; have := h5 e h; simp only [List.length_cons]; exact ⟨this.1, by omega⟩
          · intro h; exact h6 (fun x hx => h x (List.mem_cons_of_mem _ hx))
          · intro x hx; exact List.mem_cons_of_mem _ (h7 x hx)
      | interrupted =>
        dsimp only
        obtain ⟨h1, h2, h3, h4, h5, h6, h7⟩ := ih written out hw
        refine ⟨h1, h2, h3, ?_, ?_, ?_, ?_⟩
        · intro h; have := h4 h; simp only [List.length_cons]; omega
        · intro e h; have := h5 e h; simp only [List.length_cons]; exact ⟨this.1, by omega⟩
        · intro h
          obtain ⟨m, hm⟩ := h .interrupted (by simp)
          cases hm
        · intro x hx; exact List.mem_cons_of_mem _ (h7 x hx)
      | fail =>
        dsimp only
        refine ⟨by omega, by omega, by simp, by simp, ?_, ?_, ?_⟩
        · intro e he; injection he with he; exact ⟨he.symm, by simp⟩
        · intro h
          obtain ⟨m, hm⟩ := h .fail (by simp)
          cases hm
        · intro x hx; exact List.mem_cons_of_mem _ hx
    · have : written = line.length := by omega
      simp [this]

/-- Only short writes, no errors and no interruptions. -/
def Short (sched : List Resp) : Prop := ∀ x ∈ sched, ∃ n, x = .accept (n + 1)

structure FlushPost (a : AutoBreak) (r : Option IoErr × AutoBreak) : Prop where
  bytes : r.2.wrapped.out ++ r.2.line = a.wrapped.out ++ a.line
  nl : r.2.hasNewline = a.hasNewline
  cap : r.2.capacity = a.capacity
  ok : r.1 = none → r.2.line = [] ∧ r.2.wrapped.sched.length ≤ a.wrapped.sched.length
  err : ∀ e, r.1 = some e → r.2.wrapped.sched.length < a.wrapped.sched.length
  short : Short a.wrapped.sched → r.1 = none
  sub : ∀ x ∈ r.2.wrapped.sched, x ∈ a.wrapped.sched

theorem flushBuf_post (a : AutoBreak) : FlushPost a a.flushBuf := by
  obtain ⟨h1, h2, h3, h4, h5, h6, h7⟩ := flushLoop_spec a.line a.wrapped.sched 0 a.wrapped.out (by omega)
  unfold AutoBreak.flushBuf
  refine ⟨?_, rfl, rfl, ?_, ?_, h6, h7⟩
  · dsimp only
    rw [h3, List.append_assoc]
    simp only [List.drop_zero, Nat.sub_zero, List.take_append_drop]
  · intro h
    have := h4 h
    exact ⟨List.drop_eq_nil_of_le (Nat.le_of_eq this.1.symm), this.2⟩
  · intro e h; exact (h5 e h).2

theorem flush_post (a : AutoBreak) : FlushPost a a.flush := by
  have h := flushBuf_post a
  unfold AutoBreak.flush
  rcases hr : a.flushBuf with ⟨_ | e, b⟩
  · rw [hr] at h
    obtain ⟨h1, h2, h3, h4, h5, h6, h7⟩ := h
    dsimp only at *
    have h4 := h4 rfl
    unfold Sink.flush
    rcases hs : b.wrapped.sched with _ | ⟨_ | _ | _, s⟩ <;> dsimp only <;> rw [hs] at h4 h7
    · exact ⟨h1, h2, h3, fun _ => ⟨h4.1, by dsimp only; rw [hs]; exact h4.2⟩, by simp, by simp,
        fun x hx => by dsimp only at hx; rw [hs] at hx; simp at hx⟩
    · refine ⟨h1, h2, h3, fun _ => ⟨h4.1, ?_⟩, by simp, by simp, ?_⟩
      · dsimp only; simp only [List.length_cons] at h4; omega
      · intro x hx; exact h7 x (List.mem_cons_of_mem _ hx)
    · refine ⟨h1, h2, h3, by simp, ?_, ?_, ?_⟩
      · intro e _; dsimp only; simp only [List.length_cons] at h4; omega
      · intro hsh
        obtain ⟨n, hn⟩ := hsh _ (h7 .interrupted (by simp))
        cases hn
      · intro x hx; exact h7 x (List.mem_cons_of_mem _ hx)
    · refine ⟨h1, h2, h3, by simp, ?_, ?_, ?_⟩
      · intro e _; dsimp only; simp only [List.length_cons] at h4; omega
      · intro hsh
        obtain ⟨n, hn⟩ := hsh _ (h7 .fail (by simp))
        cases hn
      · intro x hx; exact h7 x (List.mem_cons_of_mem _ hx)
  · rw [hr] at h; exact h

/-- The writer is in the state the ideal run is in. -/
structure Sync (st : List UInt8 × List UInt8) (a : AutoBreak) : Prop where
  nl : a.hasNewline = false
  out : a.wrapped.out = st.1
  line : a.line = st.2

/-- An error came up while the line was being ended for the next chunk. -/
structure Pend (cap : Nat) (st : List UInt8 × List UInt8) (c : List UInt8) (a : AutoBreak) : Prop where
  nl : a.hasNewline = true
  bytes : a.wrapped.out ++ a.line = st.1 ++ st.2 ++ [10]
  brk : st.2 ≠ [] ∧ st.2.length + c.length > cap

structure WritePost (cap : Nat) (st : List UInt8 × List UInt8) (c : List UInt8) (a : AutoBreak)
    (r : Option IoErr × AutoBreak) : Prop where
  capacity : r.2.capacity = cap
  ok : r.1 = none → Sync (pureStep cap st c) r.2 ∧ r.2.wrapped.sched.length ≤ a.wrapped.sched.length
  err : ∀ e, r.1 = some e → Pend cap st c r.2 ∧ r.2.wrapped.sched.length < a.wrapped.sched.length
  short : Short a.wrapped.sched → r.1 = none
  sub : ∀ x ∈ r.2.wrapped.sched, x ∈ a.wrapped.sched

theorem write_sync {cap : Nat} {st : List UInt8 × List UInt8} {a : AutoBreak} (hc : a.capacity = cap) (h : Sync st a)
    (c : List UInt8) : WritePost cap st c a (a.write c) := by
  obtain ⟨h1, h2, h3⟩ := h
  unfold AutoBreak.write AutoBreak.writePending AutoBreak.breakLine
  rw [if_neg (by simp [h1])]
  dsimp only
  by_cases hb : a.line ≠ [] ∧ a.line.length + c.length > a.capacity
  · rw [if_pos hb]
    have hf := flush_post { a with line := a.line ++ [10], hasNewline := true }
    rcases hr : AutoBreak.flush { a with line := a.line ++ [10], hasNewline := true } with ⟨_ | e, b⟩ <;> rw [hr] at hf
    · obtain ⟨f1, f2, f3, f4, f5, f6, f7⟩ := hf
      dsimp only at *
      obtain ⟨f4, f4'⟩ := f4 rfl
      refine ⟨f3.trans hc, fun _ => ⟨⟨rfl, ?_, ?_⟩, f4'⟩, by simp, by simp, f7⟩
      · unfold pureStep
        rw [h3, hc] at hb
        rw [if_pos hb]
        rw [f4, List.append_nil] at f1
        dsimp only
        rw [f1, h2, h3, List.append_assoc]
      · unfold pureStep
        rw [h3, hc] at hb
        rw [if_pos hb]
        dsimp only
        rw [f4, List.nil_append]
    · obtain ⟨f1, f2, f3, f4, f5, f6, f7⟩ := hf
      dsimp only at *
      refine ⟨f3.trans hc, by simp, fun e' he => ⟨⟨f2, ?_, ?_⟩, f5 e rfl⟩, fun hs => f6 hs, f7⟩
      · dsimp only; rw [f1, h2, h3, List.append_assoc]
      · rw [← h3, ← hc]; exact hb
  · rw [if_neg hb]
    refine ⟨hc, fun _ => ⟨⟨h1, ?_, ?_⟩, by simp⟩, by simp, by simp, fun x hx => hx⟩
    · unfold pureStep
      rw [h3, hc] at hb
      rw [if_neg hb]
      exact h2
    · unfold pureStep
      rw [h3, hc] at hb
      rw [if_neg hb]
      dsimp only
      rw [h3]

theorem write_pend {cap : Nat} {st : List UInt8 × List UInt8} {a : AutoBreak} (hc : a.capacity = cap) {c : List UInt8}
    (h : Pend cap st c a) : WritePost cap st c a (a.write c) := by
  obtain ⟨h1, h2, h3⟩ := h
  unfold AutoBreak.write AutoBreak.writePending
  rw [if_pos h1]
  have hf := flush_post a
  rcases hr : a.flush with ⟨_ | e, b⟩ <;> rw [hr] at hf
  · obtain ⟨f1, f2, f3, f4, f5, f6, f7⟩ := hf
    dsimp only at *
    obtain ⟨f4, f4'⟩ := f4 rfl
    unfold AutoBreak.breakLine
    rw [if_neg (by simp [f4])]
    dsimp only
    refine ⟨f3.trans hc, fun _ => ⟨⟨rfl, ?_, ?_⟩, f4'⟩, by simp, by simp, f7⟩
    · unfold pureStep
      rw [if_pos h3]
      rw [f4, List.append_nil] at f1
      dsimp only
      rw [f1, h2]
    · unfold pureStep
      rw [if_pos h3]
      dsimp only
      rw [f4, List.nil_append]
  · obtain ⟨f1, f2, f3, f4, f5, f6, f7⟩ := hf
    dsimp only at *
    refine ⟨f3.trans hc, by simp, fun e' he => ⟨⟨f2.trans h1, f1.trans h2, h3⟩, f5 e rfl⟩, fun hs => f6 hs, f7⟩

theorem writeAllLoop_post {cap : Nat} {st : List UInt8 × List UInt8} {c : List UInt8} :
    ∀ (fuel : Nat) (a : AutoBreak), a.capacity = cap → a.wrapped.sched.length < fuel → (Sync st a ∨ Pend cap st c a) →
      WritePost cap st c a (AutoBreak.writeAllLoop fuel a c) := by
  intro fuel
  induction fuel with
  | zero => intro a _ h; omega
  | succ fuel ih =>
    intro a hc hl h
    have hw : WritePost cap st c a (a.write c) := by
      rcases h with h | h
      · exact write_sync hc h c
      · exact write_pend hc h
    unfold AutoBreak.writeAllLoop
    rcases hr : a.write c with ⟨_ | e, b⟩ <;> rw [hr] at hw
    · exact hw
    · cases e with
      | other => exact hw
      | interrupted =>
        dsimp only
        obtain ⟨w1, w2, w3, w4, w5⟩ := hw
        obtain ⟨p1, p2⟩ := w3 _ rfl
        dsimp only at *
        obtain ⟨v1, v2, v3, v4, v5⟩ := ih b w1 (by omega) (Or.inr p1)
        refine ⟨v1, fun h => ⟨(v2 h).1, by have := (v2 h).2; omega⟩, fun e h => ⟨(v3 e h).1, by have := (v3 e h).2; omega⟩,
          ?_, fun x hx => w5 x (v5 x hx)⟩
        intro hs
        have := w4 hs
        cases this

theorem writeChunks_post {cap : Nat} : ∀ (cs : List (List UInt8)) (st : List UInt8 × List UInt8) (a : AutoBreak),
    (∀ c ∈ cs, c ≠ []) → a.capacity = cap → Sync st a →
    let r := a.writeChunks cs
    (r.1 = none → Sync (pureRun cap st cs) r.2) ∧
      (∀ e, r.1 = some e → (r.2.wrapped.out ++ r.2.line) <+: ((pureRun cap st cs).1 ++ (pureRun cap st cs).2)) ∧
      (Short a.wrapped.sched → r.1 = none) ∧ (∀ x ∈ r.2.wrapped.sched, x ∈ a.wrapped.sched) := by
  intro cs
  induction cs with
  | nil =>
    intro st a _ hc hs
    exact ⟨fun _ => hs, by simp [AutoBreak.writeChunks], by simp [AutoBreak.writeChunks],
      by simp [AutoBreak.writeChunks]⟩
  | cons c cs ih =>
    intro st a hne hc hs
    have hw : WritePost cap st c a (a.writeAll c) := by
      unfold AutoBreak.writeAll
      rw [if_neg (hne c (by simp))]
      exact writeAllLoop_post _ a hc (by omega) (Or.inl hs)
    simp only [AutoBreak.writeChunks]
    rcases hr : a.writeAll c with ⟨_ | e, b⟩ <;> rw [hr] at hw
    · obtain ⟨w1, w2, w3, w4, w5⟩ := hw
      obtain ⟨i1, i2, i3, i4⟩ := ih (pureStep cap st c) b (fun c hc => hne c (List.mem_cons_of_mem _ hc)) w1 (w2 rfl).1
      dsimp only at *
      exact ⟨i1, i2, fun h => i3 (fun x hx => h x (w5 x hx)), fun x hx => w5 x (i4 x hx)⟩
    · obtain ⟨w1, w2, w3, w4, w5⟩ := hw
      dsimp only at *
      obtain ⟨p, -⟩ := w3 e rfl
      refine ⟨by simp, fun _ _ => ?_, w4, w5⟩
      rw [p.bytes]
      have : (st.1 ++ st.2 ++ [10]) <+: ((pureStep cap st c).1 ++ (pureStep cap st c).2) := by
        unfold pureStep
        rw [if_pos p.brk]
        exact ⟨c, rfl⟩
      exact this.trans (pureRun_prefix cap cs _)


/-- The bytes an ideal run writes. -/
def brokenText (cap : Nat) (cs : List (List UInt8)) : List UInt8 := (pureRun cap ([], []) cs).1 ++ (pureRun cap ([], []) cs).2

theorem pureRun_shift (cap : Nat) (o : List UInt8) (cs : List (List UInt8)) : ∀ st : List UInt8 × List UInt8,
    pureRun cap (o ++ st.1, st.2) cs = (o ++ (pureRun cap st cs).1, (pureRun cap st cs).2) := by
  induction cs with
  | nil => intro st; rfl
  | cons c cs ih =>
    intro st
    have : pureStep cap (o ++ st.1, st.2) c = (o ++ (pureStep cap st c).1, (pureStep cap st c).2) := by
      unfold pureStep
      dsimp only
      split <;> simp [List.append_assoc]
    simp only [pureRun, List.foldl_cons] at *
    rw [this]
    exact ih _

theorem autoBreakRun_spec (cap : Nat) (w : Sink) (cs : List (List UInt8)) (hne : ∀ c ∈ cs, c ≠ []) :
    let r := autoBreakRun cap w cs
    (r.1 = none → r.2.out = w.out ++ brokenText cap cs) ∧ r.2.out <+: w.out ++ brokenText cap cs ∧
      (Short w.sched → r.1 = none) ∧ (∀ x ∈ r.2.sched, x ∈ w.sched) := by
  have hp := writeChunks_post (cap := cap) cs (w.out, []) (AutoBreak.new w cap) hne rfl ⟨rfl, rfl, rfl⟩
  have hfull : (pureRun cap (w.out, []) cs).1 ++ (pureRun cap (w.out, []) cs).2 = w.out ++ brokenText cap cs := by
    have := pureRun_shift cap w.out cs ([], [])
    rw [List.append_nil] at this
    rw [this, brokenText, List.append_assoc]
  unfold autoBreakRun
  rcases hr : (AutoBreak.new w cap).writeChunks cs with ⟨_ | e, a⟩ <;> rw [hr] at hp <;> obtain ⟨p1, p2, p3, p4⟩ := hp
  · have hs := p1 rfl
    dsimp only at *
    have hf := flush_post a
    have hd := flushBuf_post a.flush.2
    have hb : a.wrapped.out ++ a.line = w.out ++ brokenText cap cs := by rw [hs.out, hs.line, hfull]
    refine ⟨?_, ?_, ?_, fun x hx => p4 x (hf.sub x (hd.sub x hx))⟩
    · intro he
      obtain ⟨f1, -⟩ := hf.ok he
      have h1 := hf.bytes
      have h2 := hd.bytes
      rw [f1, List.append_nil] at h1 h2
      obtain ⟨g1, -⟩ : a.flush.2.flushBuf.2.line = [] ∧ True := by
        have : a.flush.2.flushBuf.2.line = [] := by
          unfold AutoBreak.flushBuf
          dsimp only
          rw [f1]; simp
        exact ⟨this, trivial⟩
      rw [g1, List.append_nil] at h2
      unfold AutoBreak.drop
      rw [h2, h1, hb]
    · unfold AutoBreak.drop
      rw [← hb, ← hf.bytes, ← hd.bytes]
      exact List.prefix_append _ _
    · intro hsh
      exact hf.short (fun x hx => hsh x (p4 x hx))
  · dsimp only at *
    have hd := flushBuf_post a
    refine ⟨by simp, ?_, p3, fun x hx => p4 x (hd.sub x hx)⟩
    have := p2 e rfl
    rw [hfull, ← hd.bytes] at this
    exact (List.prefix_append _ _).trans this

/-! ## C40: the theorems about the writer -/

/-- C40: whatever a writer does (short writes, interruptions, errors, in any order), when the call reports success the
writer got exactly the bytes that a writer that takes everything gets, and otherwise it got a prefix of them. Short
writes alone never make it fail. -/
theorem C40_any_writer (cap : Nat) (out : List UInt8) (sched : List Resp) (chunks : List (List UInt8))
    (hne : ∀ c ∈ chunks, c ≠ []) :
    let ideal := (autoBreakRun cap ⟨out, []⟩ chunks).2.out
    let run := autoBreakRun cap ⟨out, sched⟩ chunks
    (run.1 = none → run.2.out = ideal) ∧ run.2.out <+: ideal ∧
      ((∀ r ∈ sched, ∃ n, r = .accept (n + 1)) → run.1 = none) := by
  obtain ⟨i1, -, i3, -⟩ := autoBreakRun_spec cap ⟨out, []⟩ chunks hne
  have i := i1 (i3 (by intro x hx; simp at hx))
  obtain ⟨r1, r2, r3, -⟩ := autoBreakRun_spec cap ⟨out, sched⟩ chunks hne
  dsimp only at *
  exact ⟨fun h => (r1 h).trans i.symm, by rw [i]; exact r2, r3⟩

-- Non-vacuity: capacity 4; an interrupted and a short write do no harm, an error leaves a prefix.
example : autoBreakRun 4 ⟨[], []⟩ [[49], [32], [50, 51], [32], [52]] = (none, ⟨[49, 32, 50, 51, 10, 32, 52], []⟩) := by
  decide +kernel
example : autoBreakRun 4 ⟨[], [.interrupted, .accept 1, .accept 2]⟩ [[49], [32], [50, 51], [32], [52]] =
    (none, ⟨[49, 32, 50, 51, 10, 32, 52], []⟩) := by decide +kernel
example : (autoBreakRun 4 ⟨[], [.accept 1, .fail, .fail]⟩ [[49], [32], [50, 51], [32], [52]]).2.out = [49] := by
  decide +kernel

/-- The state of the ideal run, described by the finished lines and the current one. -/
theorem pureRun_lines (cap : Nat) (cs : List (List UInt8)) : ∀ (ls : List (List (List UInt8))) (cur : List (List UInt8)),
    (∀ l ∈ ls, l.flatten.length ≤ cap ∨ l.length ≤ 1) → (cur.flatten.length ≤ cap ∨ cur.length ≤ 1) →
    (∀ c ∈ cs, c ≠ []) → (∀ c ∈ cur, c ≠ []) →
    ∃ ls' cur', (ls' ++ [cur']).flatten = (ls ++ [cur]).flatten ++ cs ∧
      pureRun cap (ls.flatMap (fun l => l.flatten ++ [10]), cur.flatten) cs =
        (ls'.flatMap (fun l => l.flatten ++ [10]), cur'.flatten) ∧
      (∀ l ∈ ls' ++ [cur'], l.flatten.length ≤ cap ∨ l.length ≤ 1) := by
  induction cs with
  | nil =>
    intro ls cur h1 h2 _ _
    refine ⟨ls, cur, by simp, rfl, ?_⟩
    intro l hl
    rcases List.mem_append.1 hl with hl | hl
    · exact h1 l hl
    · rw [List.mem_singleton] at hl; subst hl; exact h2
  | cons c cs ih =>
    intro ls cur h1 h2 hne hcur
    by_cases hb : cur.flatten ≠ [] ∧ cur.flatten.length + c.length > cap
    · have hstep : pureStep cap (ls.flatMap (fun l => l.flatten ++ [10]), cur.flatten) c =
          ((ls ++ [cur]).flatMap (fun l => l.flatten ++ [10]), [c].flatten) := by
        unfold pureStep
        rw [if_pos hb]
        simp [List.append_assoc]
      obtain ⟨ls', cur', e1, e2, e3⟩ := ih (ls ++ [cur]) [c]
        (by
          intro l hl
          rcases List.mem_append.1 hl with hl | hl
          · exact h1 l hl
          · rw [List.mem_singleton] at hl; subst hl; exact h2)
        (Or.inr (by simp)) (fun c hc => hne c (List.mem_cons_of_mem _ hc))
        (by intro x hx; rw [List.mem_singleton] at hx; subst hx; exact hne _ (by simp))
      refine ⟨ls', cur', ?_, ?_, e3⟩
      · rw [e1]; simp
      · rw [pureRun, List.foldl_cons, hstep]; exact e2
    · have hstep : pureStep cap (ls.flatMap (fun l => l.flatten ++ [10]), cur.flatten) c =
          (ls.flatMap (fun l => l.flatten ++ [10]), (cur ++ [c]).flatten) := by
        unfold pureStep
        rw [if_neg hb]
        simp
      have hcur2 : (cur ++ [c]).flatten.length ≤ cap ∨ (cur ++ [c]).length ≤ 1 := by
        by_cases hnil : cur.flatten = []
        · right
          cases cur with
          | nil => simp
          | cons x xs =>
            exfalso
            have : x ≠ [] := hcur x (by simp)
            simp only [List.flatten_cons, List.append_eq_nil_iff] at hnil
            exact this hnil.1
        · left
          have : ¬ cur.flatten.length + c.length > cap := fun h => hb ⟨hnil, h⟩
          simp only [List.flatten_append, List.length_append, List.flatten_cons, List.flatten_nil, List.append_nil]
          omega
      obtain ⟨ls', cur', e1, e2, e3⟩ := ih ls (cur ++ [c]) h1 hcur2 (fun c hc => hne c (List.mem_cons_of_mem _ hc))
        (by
          intro x hx
          rcases List.mem_append.1 hx with hx | hx
          · exact hcur x hx
          · rw [List.mem_singleton] at hx; subst hx; exact hne _ (by simp))
      refine ⟨ls', cur', ?_, ?_, e3⟩
      · rw [e1]; simp
      · rw [pureRun, List.foldl_cons, hstep]; exact e2

/-- C40: the text written is the chunks in order, with a newline only between chunks; every line is within the capacity
or is a single chunk. -/
theorem C40_lines (cap : Nat) (chunks : List (List UInt8)) (hne : ∀ c ∈ chunks, c ≠ []) :
    ∃ (ls : List (List (List UInt8))) (last : List (List UInt8)),
      (ls ++ [last]).flatten = chunks ∧
      autoBreakRun cap ⟨[], []⟩ chunks = (none, ⟨ls.flatMap (fun l => l.flatten ++ [10]) ++ last.flatten, []⟩) ∧
      ∀ l ∈ ls ++ [last], l.flatten.length ≤ cap ∨ l.length ≤ 1 := by
  obtain ⟨ls, cur, h1, h2, h3⟩ := pureRun_lines cap chunks [] [] (by simp) (by simp) hne (by simp)
  refine ⟨ls, cur, by simpa using h1, ?_, h3⟩
  obtain ⟨i1, -, i3, i4⟩ := autoBreakRun_spec cap ⟨[], []⟩ chunks hne
  have i0 := i3 (by intro x hx; simp at hx)
  have i := i1 i0
  have hs : (autoBreakRun cap ⟨[], []⟩ chunks).2.sched = [] := by
    cases hc : (autoBreakRun cap ⟨[], []⟩ chunks).2.sched with
    | nil => rfl
    | cons x xs => have := i4 x (by rw [hc]; simp); simp at this
  rcases hr : autoBreakRun cap ⟨[], []⟩ chunks with ⟨e, o, s⟩
  rw [hr] at i0 i hs
  dsimp only at *
  simp only [List.flatMap_nil, List.flatten_nil] at h2
  rw [i0, i, hs, brokenText, h2]
  rfl

end Pnm
end Verif
