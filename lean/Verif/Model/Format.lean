import Verif.Base.Rust

/-!
# Image formats: names and signatures (src/image.rs, src/image_reader/free_functions.rs)
-/

namespace Verif

/-- `enum ImageFormat` (src/image.rs:28-76). -/
inductive ImageFormat
  | Png | Jpeg | Gif | WebP | Pnm | Tiff | Tga | Dds | Bmp | Ico | Hdr | OpenExr | Farbfeld | Avif | Qoi | Pcx
  deriving DecidableEq, Repr

namespace ImageFormat

/-- `str::to_ascii_lowercase`: maps `'A'..='Z'` to lower case and leaves every other character alone. -/
def asciiLower (s : List Char) : List Char :=
  s.map fun c => if 65 ≤ c.toNat ∧ c.toNat ≤ 90 then Char.ofNat (c.toNat + 32) else c

/-- `from_extension` (src/image.rs:90-120) on the characters of the extension; an extension that is not
Unicode (`to_str` is `None`) is `none`. -/
def fromExtension (ext : Option (List Char)) : Option ImageFormat := do
  let ext ← ext
  let s := String.ofList (asciiLower ext)
  if s = "avif" then some Avif
  else if s = "jpg" ∨ s = "jpeg" ∨ s = "jfif" then some Jpeg
  else if s = "png" ∨ s = "apng" then some Png
  else if s = "gif" then some Gif
  else if s = "webp" then some WebP
  else if s = "tif" ∨ s = "tiff" then some Tiff
  else if s = "tga" then some Tga
  else if s = "dds" then some Dds
  else if s = "bmp" then some Bmp
  else if s = "ico" then some Ico
  else if s = "hdr" then some Hdr
  else if s = "exr" then some OpenExr
  else if s = "pbm" ∨ s = "pam" ∨ s = "ppm" ∨ s = "pgm" then some Pnm
  else if s = "ff" then some Farbfeld
  else if s = "qoi" then some Qoi
  else if s = "pcx" then some Pcx
  else none

/-- `from_path` (src/image.rs:135-154), given the extension of the path. -/
def fromPath (ext : Option (Option (List Char))) : R ImageFormat :=
  match ext.bind fromExtension with
  | some f => .ok f
  | none => errR .unsupported

/-- `from_mime_type` (src/image.rs:166-193). -/
def fromMimeType (s : String) : Option ImageFormat :=
  if s = "image/avif" then some Avif
  else if s = "image/jpeg" then some Jpeg
  else if s = "image/png" then some Png
  else if s = "image/gif" then some Gif
  else if s = "image/webp" then some WebP
  else if s = "image/tiff" then some Tiff
  else if s = "image/x-targa" ∨ s = "image/x-tga" then some Tga
  else if s = "image/vnd-ms.dds" then some Dds
  else if s = "image/bmp" then some Bmp
  else if s = "image/x-icon" ∨ s = "image/vnd.microsoft.icon" then some Ico
  else if s = "image/vnd.radiance" then some Hdr
  else if s = "image/x-exr" then some OpenExr
  else if s = "image/x-portable-bitmap" ∨ s = "image/x-portable-graymap" ∨ s = "image/x-portable-pixmap" ∨
      s = "image/x-portable-anymap" then some Pnm
  else if s = "image/x-qoi" then some Qoi
  else if s = "image/vnd.zbrush.pcx" ∨ s = "image/x-pcx" then some Pcx
  else none

/-- `to_mime_type` (src/image.rs:216-240). -/
def toMimeType : ImageFormat → String
  | Avif => "image/avif" | Jpeg => "image/jpeg" | Png => "image/png" | Gif => "image/gif"
  | WebP => "image/webp" | Tiff => "image/tiff" | Tga => "image/x-targa" | Dds => "image/vnd-ms.dds"
  | Bmp => "image/bmp" | Ico => "image/x-icon" | Hdr => "image/vnd.radiance" | OpenExr => "image/x-exr"
  | Pnm => "image/x-portable-anymap" | Qoi => "image/x-qoi" | Farbfeld => "application/octet-stream"
  | Pcx => "image/vnd.zbrush.pcx"

/-- `can_read` (src/image.rs:245-265). -/
def canRead : ImageFormat → Bool
  | Png => true | Gif => true | Jpeg => true | WebP => true | Tiff => true | Tga => true | Dds => false
  | Bmp => true | Ico => true | Hdr => true | OpenExr => true | Pnm => true | Farbfeld => true | Avif => true
  | Qoi => true | Pcx => true

/-- `can_write` (src/image.rs:270-290). -/
def canWrite : ImageFormat → Bool
  | Gif => true | Ico => true | Jpeg => true | Png => true | Bmp => true | Tiff => true | Tga => true
  | Pnm => true | Farbfeld => true | Avif => true | WebP => true | Hdr => true | OpenExr => true
  | Dds => false | Qoi => true | Pcx => false

/-- `extensions_str` (src/image.rs:302-322). -/
def extensionsStr : ImageFormat → List String
  | Png => ["png"] | Jpeg => ["jpg", "jpeg"] | Gif => ["gif"] | WebP => ["webp"]
  | Pnm => ["pbm", "pam", "ppm", "pgm"] | Tiff => ["tiff", "tif"] | Tga => ["tga"] | Dds => ["dds"]
  | Bmp => ["bmp"] | Ico => ["ico"] | Hdr => ["hdr"] | OpenExr => ["exr"] | Farbfeld => ["ff"]
  | Avif => ["avif"] | Qoi => ["qoi"] | Pcx => ["pcx"]

/-- The cargo feature guarding a format (src/image.rs:329-343, 353-366). -/
inductive Feature
  | png | gif | jpeg | webp | tiff | tga | bmp | ico | hdr | exr | pnm | ff | avif | qoi | pcx
  deriving DecidableEq

/-- `reading_enabled` (src/image.rs:327-346), for a set of enabled cargo features. -/
def readingEnabled (feature : Feature → Bool) : ImageFormat → Bool
  | Png => feature .png | Gif => feature .gif | Jpeg => feature .jpeg | WebP => feature .webp
  | Tiff => feature .tiff | Tga => feature .tga | Bmp => feature .bmp | Ico => feature .ico
  | Hdr => feature .hdr | OpenExr => feature .exr | Pnm => feature .pnm | Farbfeld => feature .ff
  | Avif => feature .avif | Qoi => feature .qoi | Pcx => feature .pcx | Dds => false

/-- `writing_enabled` (src/image.rs:351-370). -/
def writingEnabled (feature : Feature → Bool) : ImageFormat → Bool
  | Gif => feature .gif | Ico => feature .ico | Jpeg => feature .jpeg | Png => feature .png
  | Bmp => feature .bmp | Tiff => feature .tiff | Tga => feature .tga | Pnm => feature .pnm
  | Farbfeld => feature .ff | Avif => feature .avif | WebP => feature .webp | OpenExr => feature .exr
  | Qoi => feature .qoi | Hdr => feature .hdr | Pcx => false | Dds => false

/-- The match arms of `write_buffer_impl` (src/image_reader/free_functions.rs:56-126): whether an encoder is
dispatched to; the fall-through arm returns `Unsupported`. -/
def writeDispatched (feature : Feature → Bool) : ImageFormat → Bool
  | Png => feature .png | Jpeg => feature .jpeg | Pnm => feature .pnm | Gif => feature .gif
  | Ico => feature .ico | Bmp => feature .bmp | Farbfeld => feature .ff | Tga => feature .tga
  | OpenExr => feature .exr | Tiff => feature .tiff | Avif => feature .avif | Qoi => feature .qoi
  | WebP => feature .webp | Hdr => feature .hdr | Dds => false | Pcx => false

/-- `all` (src/image.rs:373-394). -/
def all : List ImageFormat :=
  [Gif, Ico, Jpeg, Png, Bmp, Tiff, Tga, Pnm, Farbfeld, Avif, WebP, OpenExr, Qoi, Dds, Hdr, Pcx]

end ImageFormat

open ImageFormat in
/-- `MAGIC_BYTES` (src/image_reader/free_functions.rs:128-156): signature, mask, format. -/
def magicBytes : List (List UInt8 × List UInt8 × ImageFormat) := [
  ([0x89, 0x50, 0x4e, 0x47, 0x0d, 0x0a, 0x1a, 0x0a], [], Png),
  ([0xff, 0xd8, 0xff], [], Jpeg),
  ([0x47, 0x49, 0x46, 0x38, 0x39, 0x61], [], Gif),
  ([0x47, 0x49, 0x46, 0x38, 0x37, 0x61], [], Gif),
  ([0x52, 0x49, 0x46, 0x46, 0, 0, 0, 0, 0x57, 0x45, 0x42, 0x50], [0xff, 0xff, 0xff, 0xff, 0, 0, 0, 0], WebP),
  ([0x4d, 0x4d, 0x00, 0x2a], [], Tiff),
  ([0x49, 0x49, 0x2a, 0x00], [], Tiff),
  ([0x44, 0x44, 0x53, 0x20], [], Dds),
  ([0x42, 0x4d], [], Bmp),
  ([0, 0, 1, 0], [], Ico),
  ([0x23, 0x3f, 0x52, 0x41, 0x44, 0x49, 0x41, 0x4e, 0x43, 0x45], [], Hdr),
  ([0, 0, 0, 0, 0x66, 0x74, 0x79, 0x70, 0x61, 0x76, 0x69, 0x66], [0xff, 0xff, 0, 0], Avif),
  ([0x76, 0x2f, 0x31, 0x01], [], OpenExr),
  ([0x71, 0x6f, 0x69, 0x66], [], Qoi),
  ([0x50, 0x31], [], Pnm),
  ([0x50, 0x32], [], Pnm),
  ([0x50, 0x33], [], Pnm),
  ([0x50, 0x34], [], Pnm),
  ([0x50, 0x35], [], Pnm),
  ([0x50, 0x36], [], Pnm),
  ([0x50, 0x37], [], Pnm),
  ([0x66, 0x61, 0x72, 0x62, 0x66, 0x65, 0x6c, 0x64], [], Farbfeld),
  ([0x0a, 0x0], [0xff, 0xf8], Pcx)]

/-- `buffer.starts_with(signature)`. -/
def startsWith : List UInt8 → List UInt8 → Bool
  | _, [] => true
  | [], _ :: _ => false
  | b :: bs, s :: ss => b == s && startsWith bs ss

/-- `buffer.iter().zip(signature).zip(mask.iter().chain(repeat(&0xFF))).all(|..| byte & mask == sig)`
(src/image_reader/free_functions.rs:177-181). -/
def maskedAll : List UInt8 → List UInt8 → List UInt8 → Bool
  | b :: bs, s :: ss, [] => (b &&& 0xff) == s && maskedAll bs ss []
  | b :: bs, s :: ss, m :: ms => (b &&& m) == s && maskedAll bs ss ms
  | _, _, _ => true

/-- `guess_format_impl` (src/image_reader/free_functions.rs:170-188), the loop over the table. -/
def guessFrom (buffer : List UInt8) : List (List UInt8 × List UInt8 × ImageFormat) → Option ImageFormat
  | [] => none
  | (signature, mask, format) :: rest =>
    if mask.isEmpty then
      if startsWith buffer signature then some format else guessFrom buffer rest
    else if buffer.length ≥ signature.length && maskedAll buffer signature mask then some format
    else guessFrom buffer rest

/-- `guess_format` (src/image_reader/free_functions.rs:163-168). -/
def guessFormat (buffer : List UInt8) : R ImageFormat :=
  match guessFrom buffer magicBytes with
  | some f => .ok f
  | none => errR .unsupported

end Verif
