import Verif.Model.Format
import Verif.Model.DecoderToImage
import Verif.Model.Reader
import Verif.Model.Gif

/-!
# Saving images (src/image_reader/free_functions.rs, src/buffer.rs, src/dynimage.rs)

An encoder is an arbitrary program (`Prog`) that writes to a seekable writer; it may react to the failure of any of its calls.
`std::io::BufWriter` and `std::fs::File` are modelled from their documentation.
-/

namespace Verif.Save
open Verif

/-- What an encoder does with its writer: each call is followed by what is done when it succeeds and when it fails. -/
inductive Prog where
  | done (r : R Unit)
  | write (data : List UInt8) (next fail : Prog)
  | seek (pos : Nat) (next fail : Prog)
  | position (next : Nat → Prog) (fail : Prog)
  | flush (next fail : Prog)

/-- Writing `d` at offset `p`: a gap beyond the end is filled with zeros (POSIX `write`). -/
def put (b : List UInt8) (p : Nat) (d : List UInt8) : List UInt8 :=
  if d = [] then b else (b ++ List.replicate (p - b.length) 0).take p ++ d ++ b.drop (p + d.length)

/-- An open `File`: contents, position and the fate of the `write` calls to come: failure, or at most `n + 1` bytes taken; everything
is taken once the schedule is used up. -/
structure Dev where
  bytes : List UInt8
  pos : Nat
  sched : List (Option Nat)
  deriving DecidableEq

/-- `File::write`. -/
def Dev.write (d : Dev) (data : List UInt8) : Option Nat × Dev :=
  match d.sched with
  | [] => (some data.length, { d with bytes := put d.bytes d.pos data, pos := d.pos + data.length })
  | none :: s => (none, { d with sched := s })
  | some k :: s =>
    let n := min (k + 1) data.length
    (some n, ⟨put d.bytes d.pos (data.take n), d.pos + n, s⟩)

/-- The loop of `Write::write_all` and of `BufWriter::flush_buf`: what could not be written (nothing on success) and the file. The fuel is the
length of the data: every successful `write` takes a byte. -/
def Dev.drain : Nat → List UInt8 → Dev → List UInt8 × Dev
  | 0, data, d => (data, d)
  | fuel + 1, data, d =>
    if data = [] then ([], d)
    else match d.write data with
      | (none, d) => (data, d)
      | (some n, d) => Dev.drain fuel (data.drop n) d

/-- `BufWriter<File>`. -/
structure BufWriter where
  buf : List UInt8
  dev : Dev
  deriving DecidableEq

namespace BufWriter

/-- The capacity of `BufWriter::new`. -/
def capacity : Nat := 8192

/-- `BufWriter::flush_buf`: on failure the bytes not yet written stay in the buffer. -/
def flushBuf (b : BufWriter) : Bool × BufWriter :=
  let (rest, dev) := Dev.drain b.buf.length b.buf b.dev
  (rest.isEmpty, ⟨rest, dev⟩)

/-- `BufWriter::write_all`. -/
def writeAll (b : BufWriter) (data : List UInt8) : Bool × BufWriter :=
  if data.length < capacity - b.buf.length then (true, { b with buf := b.buf ++ data })
  else
    let (ok, b) := if data.length > capacity - b.buf.length then b.flushBuf else (true, b)
    if ok then
      if data.length ≥ capacity then
        let (rest, dev) := Dev.drain data.length data b.dev
        (rest.isEmpty, { b with dev := dev })
      else (true, { b with buf := b.buf ++ data })
    else (false, b)

/-- `BufWriter::seek`. -/
def seek (b : BufWriter) (pos : Nat) : Bool × BufWriter :=
  let (ok, b) := b.flushBuf
  if ok then (true, { b with dev := { b.dev with pos := pos } }) else (false, b)

/-- `Seek::stream_position`, that is `seek(SeekFrom::Current(0))`. -/
def streamPosition (b : BufWriter) : Option Nat × BufWriter :=
  let (ok, b) := b.flushBuf
  if ok then (some b.dev.pos, b) else (none, b)

/-- An encoder at work on the writer. -/
def run : Prog → BufWriter → R Unit × BufWriter
  | .done r, b => (r, b)
  | .write data next fail, b =>
    match b.writeAll data with
    | (true, b) => run next b
    | (false, b) => run fail b
  | .seek pos next fail, b =>
    match b.seek pos with
    | (true, b) => run next b
    | (false, b) => run fail b
  | .position next fail, b =>
    match b.streamPosition with
    | (some p, b) => run (next p) b
    | (none, b) => run fail b
  | .flush next fail, b =>
    match b.flushBuf with
    | (true, b) => run next b
    | (false, b) => run fail b

/-- `Drop for BufWriter`: the buffer is flushed, an error is ignored. -/
def drop (b : BufWriter) : Dev := b.flushBuf.2.dev

end BufWriter

/-- The encoders, and the machine's byte order. -/
structure Env where
  le : Bool
  feature : ImageFormat.Feature → Bool
  /-- `write_image` of the encoders of all formats but GIF. -/
  encoder : ImageFormat → List UInt8 → Nat → Nat → ExtendedColorType → Prog
  /-- `encode_gif` (src/codecs/gif.rs:575-597) on a frame from `Frame::from_rgb` or `Frame::from_rgba`, of the given size, colour and data. -/
  encodeGif : Nat → Nat → Bool → List UInt8 → Prog
  /-- `GifEncoder::encode_frame` of a new encoder (src/codecs/gif.rs:509-512), for a frame without delay. -/
  encodeFrame : ImageBuffer Nat 4 → Prog
  /-- Conversion of float pixels to 8-bit RGBA. -/
  fc : (s : PixelType) → Pix Nat s.ch → R (Pix Nat 4)

/-- `GifEncoder::encode` (src/codecs/gif.rs:486-506). -/
def gifEncode (env : Env) (data : List UInt8) (width height : Nat) (color : ExtendedColorType) : Prog :=
  match Gif.gifDimensions width height with
  | .error e => .done (errR e)
  | .ok (w, h) =>
    match color with
    | .Rgb8 => env.encodeGif w h false data
    | .Rgba8 => env.encodeGif w h true data
    | _ => .done (errR .unsupported)

/-- `write_buffer_impl` (src/image_reader/free_functions.rs:56-126), and `write_buffer_with_format` (src/dynimage.rs:1318-1328). -/
def writeBuffer (env : Env) (buf : List UInt8) (width height : Nat) (color : ExtendedColorType) (format : ImageFormat) : Prog :=
  if ImageFormat.writeDispatched env.feature format then
    if format = .Gif then gifEncode env buf width height color else env.encoder format buf width height color
  else .done (errR .unsupported)

/-- The files of a file system. -/
abbrev Files (Path : Type) := Path → Option (List UInt8)

/-- `save_buffer_with_format_impl` (src/image_reader/free_functions.rs:42-52), and `save_buffer_with_format` (src/dynimage.rs:1292-1309).
`create` is what becomes of `File::create`: an error, or a file, now empty, and the fate of the writes to it. -/
def saveBufferWithFormat {Path : Type} [DecidableEq Path] (env : Env) (create : Option (List (Option Nat))) (files : Files Path) (path : Path)
    (buf : List UInt8) (width height : Nat) (color : ExtendedColorType) (format : ImageFormat) : R Unit × Files Path :=
  match create with
  | none => (errR .io, files)
  | some sched =>
    let (r, b) := BufWriter.run (writeBuffer env buf width height color format) ⟨[], ⟨[], 0, sched⟩⟩
    (r, fun p => if p = path then some b.drop.bytes else files p)

/-- `save_buffer_impl` (src/image_reader/free_functions.rs:29-38), and `save_buffer` (src/dynimage.rs:1273-1282). `extension` is
`Path::extension`. -/
def saveBuffer {Path : Type} [DecidableEq Path] (env : Env) (extension : Path → Option (Option (List Char))) (create : Option (List (Option Nat)))
    (files : Files Path) (path : Path) (buf : List UInt8) (width height : Nat) (color : ExtendedColorType) : R Unit × Files Path :=
  match ImageFormat.fromPath (extension path) with
  | .ok format => saveBufferWithFormat env create files path buf width height color format
  | .error e => (.error e, files)

/-- `ImageBuffer::write_to` (src/buffer.rs:1049-1063); `sz` and `color` belong to the pixel type. -/
def bufferWriteTo {ch : Nat} (env : Env) (sz : Nat) (color : ExtendedColorType) (b : ImageBuffer Nat ch) (format : ImageFormat) : R Prog := do
  .ok (writeBuffer env (bytesOf env.le sz (← b.innerPixels)) b.width b.height color format)

/-- `ImageBuffer::write_with_encoder` (src/buffer.rs:1073-1085): the arguments of `write_image`. -/
def bufferWriteWith {ch : Nat} (env : Env) (sz : Nat) (color : ExtendedColorType) (b : ImageBuffer Nat ch)
    (encoder : List UInt8 → Nat → Nat → ExtendedColorType → Prog) : R Prog := do
  .ok (encoder (bytesOf env.le sz (← b.innerPixels)) b.width b.height color)

/-- `DynamicImage::write_to` (src/dynimage.rs:985-1010). -/
def writeTo (env : Env) (d : DynamicImage) (format : ImageFormat) : R Prog :=
  let bytes := d.innerBytes env.le
  let color := d.color.toExtended
  if format = .Png ∧ env.feature .png then .ok (env.encoder .Png bytes d.width d.height color)
  else if format = .Gif ∧ env.feature .gif then do
    let image ← d.toType .u8 .rgba env.fc
    .ok (env.encodeFrame image)
  else .ok (writeBuffer env bytes d.width d.height color format)

/-- `DynamicImage::write_with_encoder` (src/dynimage.rs:1013-1015) with `ImageBuffer::write_with_encoder`. -/
def writeWith (env : Env) (d : DynamicImage) (encoder : List UInt8 → Nat → Nat → ExtendedColorType → Prog) : Prog :=
  encoder (d.innerBytes env.le) d.width d.height d.color.toExtended

/-- `DynamicImage::save` (src/dynimage.rs:1020-1025) with `ImageBuffer::save` (src/buffer.rs:996-1008). -/
def save {Path : Type} [DecidableEq Path] (env : Env) (extension : Path → Option (Option (List Char))) (create : Option (List (Option Nat)))
    (files : Files Path) (path : Path) (d : DynamicImage) : R Unit × Files Path :=
  saveBuffer env extension create files path (d.innerBytes env.le) d.width d.height d.color.toExtended

/-- `DynamicImage::save_with_format` (src/dynimage.rs:1032-1037) with `ImageBuffer::save_with_format` (src/buffer.rs:1022-1036). -/
def saveWithFormat {Path : Type} [DecidableEq Path] (env : Env) (create : Option (List (Option Nat)))
    (files : Files Path) (path : Path) (d : DynamicImage) (format : ImageFormat) : R Unit × Files Path :=
  saveBufferWithFormat env create files path (d.innerBytes env.le) d.width d.height d.color.toExtended format

/-- `ImageReader::open` (src/image_reader/image_reader_type.rs:295-308). -/
def openReader {Path : Type} (extension : Path → Option (Option (List Char))) (files : Files Path) (path : Path) : R ImageReader :=
  match files path with
  | none => errR .io
  | some bytes => .ok ⟨⟨bytes, 0⟩, (match ImageFormat.fromPath (extension path) with | .ok f => some f | .error _ => none), Limits.default⟩

/-- `open` (src/dynimage.rs:1247-1252). -/
def openImage {Path : Type} (le : Bool) (fs : Features) (codec : ImageFormat → Cursor → Option Limits → R Decoder)
    (extension : Path → Option (Option (List Char))) (files : Files Path) (path : Path) : R DynamicImage := do
  (← openReader extension files path).decode le fs codec

/-- `image_dimensions` (src/dynimage.rs:1259-1264). -/
def imageDimensions {Path : Type} (fs : Features) (codec : ImageFormat → Cursor → Option Limits → R Decoder)
    (extension : Path → Option (Option (List Char))) (files : Files Path) (path : Path) : R (Nat × Nat) := do
  (← openReader extension files path).intoDimensions fs codec

/-- `load_from_memory_with_format` (src/dynimage.rs:1350-1353). -/
def loadFromMemoryWithFormat (le : Bool) (fs : Features) (codec : ImageFormat → Cursor → Option Limits → R Decoder)
    (buf : List UInt8) (format : ImageFormat) : R DynamicImage :=
  load le fs codec ⟨buf, 0⟩ format

/-- `load_from_memory` (src/dynimage.rs:1336-1339). -/
def loadFromMemory (le : Bool) (fs : Features) (codec : ImageFormat → Cursor → Option Limits → R Decoder) (buffer : List UInt8) :
    R DynamicImage := do
  loadFromMemoryWithFormat le fs codec buffer (← guessFormat buffer)

end Verif.Save
