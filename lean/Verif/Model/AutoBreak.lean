import Verif.Base.Bytes

/-!
# The line breaking writer of the PNM encoder (src/codecs/pnm/autobreak.rs)

The wrapped writer is a `Sink`: the bytes it has taken so far and a script of what it answers to the next calls. When
the script is used up it takes everything it is given. The field `panicked` is not modelled: it only changes while a
call to the wrapped writer is unwinding.
-/

namespace Verif
namespace Pnm

/-- What a writer answers to a call of `write` or `flush` (for `flush`, `accept` means success). -/
inductive Resp
  | accept (n : Nat)
  | interrupted
  | fail
  deriving DecidableEq

/-- The kind of an `io::Error`: only `Interrupted` is treated specially. -/
inductive IoErr
  | interrupted
  | other
  deriving DecidableEq

/-- The wrapped writer. -/
structure Sink where
  out : List UInt8
  sched : List Resp
  deriving DecidableEq

/-- `wrapped.flush()` -/
def Sink.flush (w : Sink) : Option IoErr × Sink :=
  match w.sched with
  | [] => (none, w)
  | .accept _ :: s => (none, ⟨w.out, s⟩)
  | .interrupted :: s => (some .interrupted, ⟨w.out, s⟩)
  | .fail :: s => (some .other, ⟨w.out, s⟩)

/-- `struct AutoBreak` (src/codecs/pnm/autobreak.rs:7-13). -/
structure AutoBreak where
  wrapped : Sink
  capacity : Nat
  line : List UInt8
  hasNewline : Bool
  deriving DecidableEq

/-- `AutoBreak::new` (src/codecs/pnm/autobreak.rs:16-24). -/
def AutoBreak.new (w : Sink) (capacity : Nat) : AutoBreak := ⟨w, capacity, [], false⟩

/-- The loop of `flush_buf` (src/codecs/pnm/autobreak.rs:31-49): the error if any, the number of bytes of `line` written
and the writer. A call to `wrapped.write` takes at most as many bytes as it is given; taking none is an error. -/
def flushLoop (line : List UInt8) : List Resp → Nat → List UInt8 → Option IoErr × Nat × Sink
  | [], written, out =>
    if written < line.length then (none, line.length, ⟨out ++ line.drop written, []⟩) else (none, written, ⟨out, []⟩)
  | r :: s, written, out =>
    if written < line.length then
      match r with
      | .accept n =>
        if min n (line.length - written) = 0 then (some .other, written, ⟨out, s⟩)
        else flushLoop line s (written + min n (line.length - written)) (out ++ (line.drop written).take n)
      | .interrupted => flushLoop line s written out
      | .fail => (some .other, written, ⟨out, s⟩)
    else (none, written, ⟨out, r :: s⟩)

/-- `flush_buf` (src/codecs/pnm/autobreak.rs:26-55): what was written is removed from the line. -/
def AutoBreak.flushBuf (a : AutoBreak) : Option IoErr × AutoBreak :=
  let (e, written, w) := flushLoop a.line a.wrapped.sched 0 a.wrapped.out
  (e, { a with wrapped := w, line := a.line.drop written })

/-- `flush` (src/codecs/pnm/autobreak.rs:76-79). -/
def AutoBreak.flush (a : AutoBreak) : Option IoErr × AutoBreak :=
  match a.flushBuf with
  | (some e, a) => (some e, a)
  | (none, a) =>
    let (e, w) := a.wrapped.flush
    (e, { a with wrapped := w })

/-- The first part of `write` (src/codecs/pnm/autobreak.rs:60-63). -/
def AutoBreak.writePending (a : AutoBreak) : Option IoErr × AutoBreak :=
  if a.hasNewline then
    match a.flush with
    | (some e, a) => (some e, a)
    | (none, a) => (none, { a with hasNewline := false })
  else (none, a)

/-- The second part of `write` (src/codecs/pnm/autobreak.rs:65-70), for a buffer of `n` bytes. -/
def AutoBreak.breakLine (a : AutoBreak) (n : Nat) : Option IoErr × AutoBreak :=
  if a.line ≠ [] ∧ a.line.length + n > a.capacity then
    match AutoBreak.flush { a with line := a.line ++ [10], hasNewline := true } with
    | (some e, a) => (some e, a)
    | (none, a) => (none, { a with hasNewline := false })
  else (none, a)

/-- `write` (src/codecs/pnm/autobreak.rs:59-74); on success it always takes the whole buffer. -/
def AutoBreak.write (a : AutoBreak) (buffer : List UInt8) : Option IoErr × AutoBreak :=
  match a.writePending with
  | (some e, a) => (some e, a)
  | (none, a) =>
    match a.breakLine buffer.length with
    | (some e, a) => (some e, a)
    | (none, a) => (none, { a with line := a.line ++ buffer })

/-- `std::io::Write::write_all` on the writer: retries when interrupted. Every interruption uses up an entry of the
script, so that `fuel = sched.length + 1` is enough. -/
def AutoBreak.writeAllLoop : Nat → AutoBreak → List UInt8 → Option IoErr × AutoBreak
  | 0, a, _ => (some .other, a)
  | fuel + 1, a, buffer =>
    match a.write buffer with
    | (some .interrupted, a) => writeAllLoop fuel a buffer
    | r => r

/-- `std::io::Write::write_all`, see `writeAllLoop`. -/
def AutoBreak.writeAll (a : AutoBreak) (buffer : List UInt8) : Option IoErr × AutoBreak :=
  if buffer = [] then (none, a) else AutoBreak.writeAllLoop (a.wrapped.sched.length + 1) a buffer

/-- A sequence of `write_all`, stopping at the first error (`?`). -/
def AutoBreak.writeChunks : AutoBreak → List (List UInt8) → Option IoErr × AutoBreak
  | a, [] => (none, a)
  | a, c :: cs =>
    match a.writeAll c with
    | (some e, a) => (some e, a)
    | (none, a) => a.writeChunks cs

/-- `Drop` (src/codecs/pnm/autobreak.rs:82-89): the writer that remains. -/
def AutoBreak.drop (a : AutoBreak) : Sink := a.flushBuf.2.wrapped

/-- Writing a sequence of chunks to a new `AutoBreak` around the writer, flushing it and dropping it, as
`write_samples_ascii` does (src/codecs/pnm/encoder.rs:524-534): the error if any and the writer. -/
def autoBreakRun (capacity : Nat) (w : Sink) (chunks : List (List UInt8)) : Option IoErr × Sink :=
  match (AutoBreak.new w capacity).writeChunks chunks with
  | (some e, a) => (some e, a.drop)
  | (none, a) =>
    let (e, a) := a.flush
    (e, a.drop)

end Pnm
end Verif
