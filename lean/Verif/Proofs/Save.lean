import Verif.Model.Save

/-!
# Buffered writing (for C106, C107)
-/

namespace Verif.Save
open Verif

/-- Writing twice is writing once. -/
theorem put_append (b : List UInt8) (p : Nat) (d e : List UInt8) : put (put b p d) (p + d.length) e = put b p (d ++ e) := by
  by_cases hd : d = []
  · subst hd; simp [put]
  by_cases he : e = []
  · subst he; simp [put]
  have hde : d ++ e ≠ [] := by simp [hd]
  unfold put
  rw [if_neg hd, if_neg he, if_neg hde]
  have hc : ((b ++ List.replicate (p - b.length) 0).take p).length = p := by simp; omega
  generalize (b ++ List.replicate (p - b.length) 0).take p = c at hc
  have hlen : (c ++ d ++ List.drop (p + d.length) b).length ≥ p + d.length := by simp; omega
  rw [show p + d.length - (c ++ d ++ List.drop (p + d.length) b).length = 0 by omega]
  simp only [List.replicate_zero, List.append_nil]
  have h1 : (c ++ d ++ List.drop (p + d.length) b).take (p + d.length) = c ++ d := by
    rw [List.take_append_of_le_length (by simp; omega), List.take_of_length_le (by simp; omega)]
  have h2 : (c ++ d ++ List.drop (p + d.length) b).drop (p + d.length + e.length) = b.drop (p + (d ++ e).length) := by
    rw [show p + d.length + e.length = (c ++ d).length + e.length by simp; omega, List.drop_append,
      List.drop_of_length_le (by omega), List.drop_drop]
    simp
    congr 1; omega
  rw [h1, h2]; simp

theorem put_nil (b : List UInt8) (p : Nat) : put b p [] = b := by simp [put]

/-- No call fails. -/
def NoFault (s : List (Option Nat)) : Prop := none ∉ s

theorem write_spec (d : Dev) (data : List UInt8) (hne : data ≠ []) :
    (∃ d', d.write data = (none, d') ∧ d'.bytes = d.bytes ∧ d'.pos = d.pos ∧ ¬ NoFault d.sched) ∨
    ∃ n d', d.write data = (some n, d') ∧ 0 < n ∧ n ≤ data.length ∧ d'.bytes = put d.bytes d.pos (data.take n) ∧ d'.pos = d.pos + n ∧
      (NoFault d.sched → NoFault d'.sched) := by
  have h0 : 0 < data.length := List.length_pos_iff.2 hne
  unfold Dev.write
  rcases hs : d.sched with _ | ⟨_ | k, s⟩
  · right
    refine ⟨_, _, rfl, h0, Nat.le_refl _, ?_, rfl, fun h => ?_⟩
    · simp
    · simp [NoFault]
  · left
    exact ⟨_, rfl, rfl, rfl, by simp [NoFault]⟩
  · right
    refine ⟨_, _, rfl, by omega, by omega, rfl, rfl, ?_⟩
    simp [NoFault]

theorem drain_spec (fuel : Nat) (data : List UInt8) (d : Dev) (hf : data.length ≤ fuel) :
    ∃ n, n ≤ data.length ∧ (Dev.drain fuel data d).1 = data.drop n ∧ (Dev.drain fuel data d).2.bytes = put d.bytes d.pos (data.take n) ∧
      (Dev.drain fuel data d).2.pos = d.pos + n ∧
      (NoFault d.sched → n = data.length ∧ NoFault (Dev.drain fuel data d).2.sched) := by
  induction fuel generalizing data d with
  | zero =>
    have : data = [] := List.length_eq_zero_iff.1 (by omega)
    subst this
    exact ⟨0, Nat.le_refl _, rfl, by simp [Dev.drain, put_nil], rfl, fun h => ⟨rfl, h⟩⟩
  | succ fuel ih =>
    unfold Dev.drain
    by_cases hd : data = []
    · subst hd
      rw [if_pos rfl]
      exact ⟨0, Nat.le_refl _, rfl, by simp [put_nil], rfl, fun h => ⟨rfl, h⟩⟩
    · rw [if_neg hd]
      rcases write_spec d data hd with ⟨d', hw, hb, hp, hn⟩ | ⟨n, d', hw, h0, hle, hb, hp, hn⟩
      · rw [hw]
        exact ⟨0, Nat.zero_le _, rfl, by simp [put_nil, hb], hp, fun h => absurd h hn⟩
      · rw [hw]
        obtain ⟨m, h1, h2, h3, h4, h5⟩ := ih (data.drop n) d' (by simp; omega)
        simp only [List.length_drop] at h1 h5
        refine ⟨n + m, by omega, ?_, ?_, ?_, ?_⟩
        · show (Dev.drain fuel (List.drop n data) d').1 = _
          rw [h2, List.drop_drop]
        · show (Dev.drain fuel (List.drop n data) d').2.bytes = _
          rw [h3, hb, hp]
          have hl : (data.take n).length = n := by simp; omega
          have := put_append d.bytes d.pos (data.take n) ((data.drop n).take m)
          rw [hl] at this
          rw [this, List.take_add]
        · show (Dev.drain fuel (List.drop n data) d').2.pos = _
          rw [h4, hp]; omega
        · intro h
          obtain ⟨e1, e2⟩ := h5 (hn h)
          exact ⟨by omega, e2⟩

/-- The contents and the position once the buffer is written. -/
def BufWriter.bytes (b : BufWriter) : List UInt8 := put b.dev.bytes b.dev.pos b.buf
/-- The position once the buffer is written. -/
def BufWriter.pos (b : BufWriter) : Nat := b.dev.pos + b.buf.length

theorem flushBuf_spec (b : BufWriter) : b.flushBuf.2.bytes = b.bytes ∧ b.flushBuf.2.pos = b.pos ∧ b.flushBuf.2.buf.length ≤ b.buf.length ∧
    (b.flushBuf.1 = true → b.flushBuf.2.buf = []) ∧
    (NoFault b.dev.sched → b.flushBuf.1 = true ∧ NoFault b.flushBuf.2.dev.sched) := by
  obtain ⟨n, h1, h2, h3, h4, h5⟩ := drain_spec b.buf.length b.buf b.dev (Nat.le_refl _)
  have e2 : b.flushBuf.2 = ⟨(Dev.drain b.buf.length b.buf b.dev).1, (Dev.drain b.buf.length b.buf b.dev).2⟩ := rfl
  have e1 : b.flushBuf.1 = (Dev.drain b.buf.length b.buf b.dev).1.isEmpty := rfl
  rw [e2, e1]
  have hl : (b.buf.take n).length = n := by simp; omega
  refine ⟨?_, ?_, ?_, ?_, ?_⟩
  · unfold BufWriter.bytes
    dsimp only
    rw [h2, h3, h4]
    have := put_append b.dev.bytes b.dev.pos (b.buf.take n) (b.buf.drop n)
    rw [hl] at this
    rw [this, List.take_append_drop]
  · unfold BufWriter.pos
    dsimp only
    rw [h2, h4, List.length_drop]; omega
  · dsimp only; rw [h2]; simp
  · intro h; exact List.isEmpty_iff.1 h
  · intro h
    obtain ⟨e, f⟩ := h5 h
    exact ⟨by rw [h2, e]; simp, f⟩

theorem writeAll_spec (b : BufWriter) (data : List UInt8) (hcap : b.buf.length ≤ BufWriter.capacity) :
    ((b.writeAll data).1 = true → (b.writeAll data).2.bytes = put b.bytes b.pos data ∧ (b.writeAll data).2.pos = b.pos + data.length) ∧
    (b.writeAll data).2.buf.length ≤ BufWriter.capacity ∧
    (NoFault b.dev.sched → (b.writeAll data).1 = true ∧ NoFault (b.writeAll data).2.dev.sched) := by
  have app : ∀ c : BufWriter, (BufWriter.mk (c.buf ++ data) c.dev).bytes = put c.bytes c.pos data ∧
      (BufWriter.mk (c.buf ++ data) c.dev).pos = c.pos + data.length := by
    intro c
    unfold BufWriter.bytes BufWriter.pos
    dsimp only
    rw [put_append, List.length_append]
    exact ⟨rfl, by omega⟩
  obtain ⟨f1, f2, f3, f4, f5⟩ := flushBuf_spec b
  unfold BufWriter.writeAll
  by_cases h1 : data.length < BufWriter.capacity - b.buf.length
  · rw [if_pos h1]
    exact ⟨fun _ => app b, by dsimp only; rw [List.length_append]; omega, fun h => ⟨rfl, h⟩⟩
  · rw [if_neg h1]
    -- the writer after the optional flush
    have key : ∃ ok c, (if data.length > BufWriter.capacity - b.buf.length then b.flushBuf else (true, b)) = (ok, c) ∧
        c.bytes = b.bytes ∧ c.pos = b.pos ∧ c.buf.length ≤ BufWriter.capacity ∧
        (ok = true → data.length ≥ BufWriter.capacity → c.buf = []) ∧
        (ok = true → data.length < BufWriter.capacity → c.buf.length + data.length ≤ BufWriter.capacity) ∧
        (NoFault b.dev.sched → ok = true ∧ NoFault c.dev.sched) := by
      by_cases h2 : data.length > BufWriter.capacity - b.buf.length
      · rw [if_pos h2]
        rcases hfb : b.flushBuf with ⟨ok, c⟩
        rw [hfb] at f1 f2 f3 f4 f5
        dsimp only at f1 f2 f3 f4 f5
        refine ⟨ok, c, rfl, f1, f2, by omega, fun h _ => f4 h, ?_, f5⟩
        intro h _
        rw [f4 h]; simp; omega
      · rw [if_neg h2]
        refine ⟨_, _, rfl, rfl, rfl, hcap, ?_, ?_, fun h => ⟨rfl, h⟩⟩
        · intro _ h3
          exact List.length_eq_zero_iff.1 (by omega)
        · intro _ _; omega
    obtain ⟨ok, c, hk, k1, k2, k3, k4, k5, k6⟩ := key
    rw [hk]
    dsimp only
    cases ok with
    | false =>
      rw [if_neg (by simp)]
      exact ⟨fun h => (by cases h), k3, fun h => (by cases (k6 h).1)⟩
    | true =>
      rw [if_pos rfl]
      by_cases h3 : data.length ≥ BufWriter.capacity
      · rw [if_pos h3]
        have hb := k4 rfl h3
        obtain ⟨n, g1, g2, g3, g4, g5⟩ := drain_spec data.length data c.dev (Nat.le_refl _)
        dsimp only
        refine ⟨?_, k3, ?_⟩
        · intro h
          have hn : n = data.length := by
            rw [g2, List.isEmpty_iff] at h
            have := congrArg List.length h
            simp at this
            omega
          subst hn
          rw [List.take_length] at g3
          rw [← k1, ← k2]
          unfold BufWriter.bytes BufWriter.pos
          dsimp only
          rw [hb, put_nil, put_nil, g3, g4]
          exact ⟨rfl, by simp⟩
        · intro h
          obtain ⟨e1, e2⟩ := g5 (k6 h).2
          refine ⟨?_, e2⟩
          rw [g2, e1]; simp
      · rw [if_neg h3]
        dsimp only
        refine ⟨?_, ?_, k6⟩
        · intro _
          rw [← k1, ← k2]
          exact app c
        · rw [List.length_append]; exact k5 rfl (by omega)

/-- The specification: the encoder's calls on a file without a buffer, none of which fails. -/
def direct : Prog → List UInt8 → Nat → R Unit × List UInt8
  | .done r, b, _ => (r, b)
  | .write data next _, b, p => direct next (put b p data) (p + data.length)
  | .seek pos next _, b, _ => direct next b pos
  | .position next _, b, p => direct (next p) b p
  | .flush next _, b, p => direct next b p

/-- Every failure is passed on: the encoder ends with an error. -/
def Strict : Prog → Prop
  | .done _ => True
  | .write _ next fail => Strict next ∧ ∃ e, fail = .done (.error e)
  | .seek _ next fail => Strict next ∧ ∃ e, fail = .done (.error e)
  | .position next fail => (∀ p, Strict (next p)) ∧ ∃ e, fail = .done (.error e)
  | .flush next fail => Strict next ∧ ∃ e, fail = .done (.error e)

/-- Nothing is written after the last flush when the encoder succeeds; `f` says whether the buffer is empty now. -/
def Flushes : Bool → Prog → Prop
  | f, .done r => r = .ok () → f = true
  | _, .write _ next _ => Flushes false next
  | _, .seek _ next _ => Flushes true next
  | _, .position next _ => ∀ p, Flushes true (next p)
  | _, .flush next _ => Flushes true next

theorem run_spec (p : Prog) (b : BufWriter) (hcap : b.buf.length ≤ BufWriter.capacity)
    (h : Strict p ∧ (BufWriter.run p b).1 = .ok () ∨ NoFault b.dev.sched) :
    (BufWriter.run p b).1 = (direct p b.bytes b.pos).1 ∧ (BufWriter.run p b).2.bytes = (direct p b.bytes b.pos).2 ∧
    (BufWriter.run p b).2.buf.length ≤ BufWriter.capacity ∧ (NoFault b.dev.sched → NoFault (BufWriter.run p b).2.dev.sched) ∧
    (∀ f, Flushes f p → (f = true → b.buf = []) → (BufWriter.run p b).1 = .ok () → (BufWriter.run p b).2.buf = []) := by
  induction p generalizing b with
  | done r => exact ⟨rfl, rfl, hcap, id, fun f h1 h2 h3 => h2 (h1 h3)⟩
  | write data next fail ih _ =>
    obtain ⟨w1, w2, w3⟩ := writeAll_spec b data hcap
    rcases hw : b.writeAll data with ⟨ok, c⟩
    rw [hw] at w1 w2 w3
    have hrun : BufWriter.run (.write data next fail) b = if ok = true then BufWriter.run next c else BufWriter.run fail c := by
      simp only [BufWriter.run, hw]
      cases ok <;> rfl
    cases ok with
    | false =>
      rcases h with ⟨hs, hr⟩ | hn
      · obtain ⟨_, e, he⟩ := hs
        rw [hrun, if_neg (by simp), he] at hr
        cases hr
      · cases (w3 hn).1
    | true =>
      rw [if_pos rfl] at hrun
      rw [hrun] at h ⊢
      obtain ⟨e1, e2⟩ := w1 rfl
      have := ih c w2 (h.imp (fun ⟨h1, h2⟩ => ⟨h1.1, h2⟩) (fun hn => (w3 hn).2))
      dsimp only at e1 e2
      rw [e1, e2] at this
      obtain ⟨r1, r2, r3, r4, r5⟩ := this
      exact ⟨r1, r2, r3, fun hn => r4 (w3 hn).2, fun f hf _ => r5 false hf (by simp)⟩
  | seek pos next fail ih _ =>
    obtain ⟨w1, w2, w3, w4, w5⟩ := flushBuf_spec b
    rcases hw : b.flushBuf with ⟨ok, c⟩
    rw [hw] at w1 w2 w3 w4 w5
    have hrun : BufWriter.run (.seek pos next fail) b =
        if ok = true then BufWriter.run next { c with dev := { c.dev with pos := pos } } else BufWriter.run fail c := by
      simp only [BufWriter.run, BufWriter.seek, hw]
      cases ok <;> rfl
    cases ok with
    | false =>
      rcases h with ⟨hs, hr⟩ | hn
      · obtain ⟨_, e, he⟩ := hs
        rw [hrun, if_neg (by simp), he] at hr
        cases hr
      · cases (w5 hn).1
    | true =>
      rw [if_pos rfl] at hrun
      rw [hrun] at h ⊢
      dsimp only at w1 w2 w3 w4 w5
      have hb := w4 rfl
      have := ih { c with dev := { c.dev with pos := pos } } (by dsimp only; rw [hb]; simp) (h.imp (fun ⟨h1, h2⟩ => ⟨h1.1, h2⟩) (fun hn => (w5 hn).2))
      have e1 : BufWriter.bytes { c with dev := { c.dev with pos := pos } } = b.bytes := by
        rw [← w1]; unfold BufWriter.bytes; dsimp only; rw [hb, put_nil, put_nil]
      have e2 : BufWriter.pos { c with dev := { c.dev with pos := pos } } = pos := by
        unfold BufWriter.pos; dsimp only; rw [hb]; simp
      rw [e1, e2] at this
      obtain ⟨r1, r2, r3, r4, r5⟩ := this
      exact ⟨r1, r2, r3, fun hn => r4 (w5 hn).2, fun f hf _ => r5 true hf (fun _ => hb)⟩
  | position next fail ih _ =>
    obtain ⟨w1, w2, w3, w4, w5⟩ := flushBuf_spec b
    rcases hw : b.flushBuf with ⟨ok, c⟩
    rw [hw] at w1 w2 w3 w4 w5
    have hrun : BufWriter.run (.position next fail) b =
        if ok = true then BufWriter.run (next c.dev.pos) c else BufWriter.run fail c := by
      simp only [BufWriter.run, BufWriter.streamPosition, hw]
      cases ok <;> rfl
    cases ok with
    | false =>
      rcases h with ⟨hs, hr⟩ | hn
      · obtain ⟨_, e, he⟩ := hs
        rw [hrun, if_neg (by simp), he] at hr
        cases hr
      · cases (w5 hn).1
    | true =>
      rw [if_pos rfl] at hrun
      rw [hrun] at h ⊢
      dsimp only at w1 w2 w3 w4 w5
      have hb := w4 rfl
      have hp : c.dev.pos = b.pos := by rw [← w2]; unfold BufWriter.pos; rw [hb]; simp
      have := ih c.dev.pos c (by rw [hb]; simp) (h.imp (fun ⟨h1, h2⟩ => ⟨h1.1 _, h2⟩) (fun hn => (w5 hn).2))
      rw [w1, w2] at this
      rw [hp] at this ⊢
      obtain ⟨r1, r2, r3, r4, r5⟩ := this
      exact ⟨r1, r2, r3, fun hn => r4 (w5 hn).2, fun f hf _ => r5 true (hf _) (fun _ => hb)⟩
  | flush next fail ih _ =>
    obtain ⟨w1, w2, w3, w4, w5⟩ := flushBuf_spec b
    rcases hw : b.flushBuf with ⟨ok, c⟩
    rw [hw] at w1 w2 w3 w4 w5
    have hrun : BufWriter.run (.flush next fail) b = if ok = true then BufWriter.run next c else BufWriter.run fail c := by
      simp only [BufWriter.run, hw]
      cases ok <;> rfl
    cases ok with
    | false =>
      rcases h with ⟨hs, hr⟩ | hn
      · obtain ⟨_, e, he⟩ := hs
        rw [hrun, if_neg (by simp), he] at hr
        cases hr
      · cases (w5 hn).1
    | true =>
      rw [if_pos rfl] at hrun
      rw [hrun] at h ⊢
      dsimp only at w1 w2 w3 w4 w5
      have hb := w4 rfl
      have := ih c (by rw [hb]; simp) (h.imp (fun ⟨h1, h2⟩ => ⟨h1.1, h2⟩) (fun hn => (w5 hn).2))
      rw [w1, w2] at this
      obtain ⟨r1, r2, r3, r4, r5⟩ := this
      exact ⟨r1, r2, r3, fun hn => r4 (w5 hn).2, fun f hf _ => r5 true hf (fun _ => hb)⟩

end Verif.Save
