import Verif.Model.Gif

/-!
# Sequences of frames that may fail (src/codecs/gif.rs, src/animation.rs)

An iterator over results is the list of what its calls of `next` deliver until it ends; what has not been asked for is returned as the rest.
-/

namespace Verif
namespace Gif

/-- `try_encode_frames` (src/codecs/gif.rs:529-537): the result, the encoder afterwards and what is left of the iterator. -/
def Encoder.tryEncodeFrames (c : Crate) : Encoder → List (Except Err Frame) → R (Except Err Unit × Encoder × List (Except Err Frame))
  | s, [] => .ok (.ok (), s, [])
  | s, .error e :: rest => .ok (.error e, s, rest)
  | s, .ok f :: rest => do
    match ← s.encodeFrame c f.buffer f.delay with
    | (.error e, s) => .ok (.error e, s, rest)
    | (.ok (), s) => Encoder.tryEncodeFrames c s rest

/-- `Frames::collect_frames` (src/animation.rs:24-26), `Iterator::collect` into a `Result` of a vector: `done` is what has been collected. -/
def collectFrames (done : List Frame) : List (Except Err Frame) → Except Err (List Frame) × List (Except Err Frame)
  | [] => (.ok done, [])
  | .error e :: rest => (.error e, rest)
  | .ok f :: rest => collectFrames (done ++ [f]) rest

end Gif
end Verif
