# Formal model of image-rs/image in Lean 4

## Layout

| Path | Content |
|---|---|
| `lean/Verif/Base/` | Rust semantics used by the model: results with panics, checked machine arithmetic, loops; and the generic lemmas about them |
| `lean/Verif/Model/` | the model, one file per Rust module, each definition citing file and lines |
| `lean/Verif/Spec/` | small independent specifications (what a rotated image is, what a TGA packet stream means, ...) |
| `lean/Verif/Proofs/` | helper lemmas |
| `lean/Verif/Props/` | the property theorems `Cnn_*`, with a non-vacuity `example` beside each |
| `seeded/LOG.jsonl` | log of deliberately wrong models tried against the theorems |

## Modelling conventions (part of the trusted base)

* `R α = Except Fault α`. `Fault.panic` is a Rust panic (failed assert, slice index out of range,
  `unwrap` on `None`, arithmetic overflow with overflow checks on). `Fault.err k` is a returned
  `Err`. A function which cannot fail in Rust is a plain function.
* `u8/u16/u32/u64/usize/i64...` are `Nat`/`Int` together with explicit range checks: an operation that
  Rust checks (`checked_*`), saturates or casts is modelled as such; a plain `+ - *` whose overflow is
  possible is modelled as panicking (that is the debug-profile / `overflow-checks` semantics; in a
  release build it wraps, and we say so at each place where it matters). `usize` is 64 bits.
* Bytes of files are `UInt8`; readers are the list of remaining bytes, writers the list of written bytes.
  I/O errors other than end-of-input are not modelled except in the `AutoBreak` model, where the
  underlying writer is an arbitrary schedule of short writes, interrupts and failures.
* `for` loops over integer ranges are `forRange`, nested `for y { for x { .. } }` the nested use.
* Memory is unbounded: allocation failure is not modelled.
* Floating point (`Base/Float.lean`): binary32/binary64 values are NaN, the infinities or an exact
  rational; every operation is the exact rational operation followed by round-to-nearest-even with
  gradual underflow and overflow to infinity. The sign of zero is not represented (no modelled code
  observes it). `as` casts saturate as in Rust. Library functions that IEEE 754 does not fix
  (`exp`, `log2`, `sin`, the value of `sqrt` as implemented) are parameters of the model, and the theorems
  that depend on them take an explicit accuracy hypothesis (`Libm.Ok`, `Libm.SqrtOk`, `Libm.SinOk`, `Hdr.LogOk`), with
  an instance of it exhibited beside the theorem. `powi(2)` is a product.
* Debug-profile semantics: an arithmetic overflow is a panic. A theorem that says "never panics" therefore also
  says "never overflows", which is what makes it valid for release builds.

## Trusted base

Lean 4.33.0's kernel; the axioms `propext`, `Classical.choice`, `Quot.sound` (checked with
`#print axioms` on every property theorem); the reading of the Rust source recorded in the comments of
`Verif/Model`; the semantics of the Rust standard library functions listed in the conventions.

## Properties: what is modelled and how it is proved

| Id | Model | Proof idea |
|---|---|---|
| C01-C04, C06 | `ImageBuffer` as (width, height, data list, channel count); indices with usize arithmetic | arithmetic on `(y*w+x)*ch`, list take/drop lemmas |
| C05 | the coordinate iterator as a state machine | induction on remaining pixels; the code is wrong for width 0: negation with witness plus `_partial` |
| C07-C10 | generic image operations over an abstract lawful image class (`get`/`put` laws), with instances for `ImageBuffer`, sub-images | loop invariants over `forRange` |
| C11, C12 | i64/u32 saturating geometry; loops over the class | case analysis with `omega`, loop invariants |
| C13, C14, C16 | loops over the class | loop invariants, extensionality of images |
| C15 | byte parser | totality by construction, table by cases |
| C17-C21 | per-sample functions with the enlarged types' bounds | `omega`/nonlinear arithmetic |
| C22-C26 | `SampleLayout` with checked usize arithmetic | nonlinear arithmetic; C23 and C24 are false on degenerate layouts: negation with witness and `_partial` |
| C27 | `Limits` as a state machine | invariant by induction over histories |
| C28, C29 | tables as data | finite tables lifted by list lemmas |
| C30, C31 | the Farey loop with fuel = denominator bound; `Ratio` | Farey neighbour invariant; C30 overflow: negation with witness and `_partial` |
| C32-C34 | byte level codec and reader buffering | round-trip by list lemmas, invariants over read schedules |
| C35, C36 | bit unpacking; in-place expansion | C36 false on pixel (0,0): negation with witness and `_partial` |
| C37, C38 | TGA header, packet encoder and decoder as state machines | invariant: decoded(output) ++ pending = consumed input |
| C39, C40 | PNM header printing/parsing, sample writers, AutoBreak | decimal print/parse inverse, token invariants |
| C41, C42 | BMP encoder, decoder for what the encoder writes, RLE interpreter | row padding lemmas, invariant on write positions |
| C43 | HDR run-length codec | strong induction on the scanline |
| C44, C45 | bit writer, Huffman tables | refinement to a bit list |
| C46, C47 | per-sample integer maps; dither with its error propagation | loop invariants |
| C48 | block decoding on bytes | totality and size by induction |
| C49, C51 | exact-rational rounding model of binary32 | error bounds |
| C50 | binary64 rounding model | error bounds |
| C52 | enum dispatch | case analysis |
| C53 | fold over directory entries | maximality by induction |
| C54 | the farbfeld, TGA, PNM, BMP, HDR, DDS, ICO decoders on proper prefixes | simulation of a run on a prefix by the run on the whole (`Proofs/Prefix`, `Proofs/Trunc`); RLE TGA and ASCII PNM are false: witnesses |
| C55 | grayscale loops over any image | loop invariant |
| C56, C57 | TGA decoder on arbitrary bytes | `OkOr` (result or error, no panic) composed over the run; row reversal by lists |
| C58 | `Blend for Rgba` in f32 | error bounds; false by one unit: witness |
| C59-C61 | PNM header, encoder, decoder | the range check is inverted: the negation is proved for all sizes; totality; scaling by arithmetic |
| C62-C64, C75 | the whole BMP decoder over a seekable cursor: headers, masks, palettes, RLE, all bit depths | outcome logic for totality; `Spec/Bmp` says which pixel is in which bits of the file, C75 proves the decoder agrees |
| C65, C66 | RGBE encoder and decoder, header text | rounding bounds; termination; totality fails: witness |
| C67 | decoder to DynamicImage | cases on the colour type, byte/sample inverse |
| C68-C70 | JPEG encoder: tables, DCT, colour conversion, entropy coder, markers | `Spec/Jpeg` is an independent baseline decoder, and the encoder's output is proved to decode (C44); monotonicity; error bounds; chunk induction |
| C71 | DDS header, DXT decoder driver | exact acceptance condition (iff) |
| C72-C74 | ICO decoder (directory, BMP with mask, PNG parameter) and encoder | totality; mask position specification; offsets by induction over the images |
| C76-C78 | GIF decoder compositing and encoder over an abstract gif crate (list of frame events) | refinement to `Spec` canvas semantics by induction over frames |
| C79 | APNG compositing over an abstract png crate | the same; deviates in one case: witness |
| C80 | PNG colour tables and byte order over an abstract png crate | byte-order inverse |
| C81, C82 | `resize` = `vertical_sample` then `horizontal_sample`, with exact f32 taps | loop invariants turn the loops into weighted sums; rounding analysis of taps, normalisation and sums |
| C83, C84 | `sample_nearest`, `interpolate_nearest`, `sample_bilinear`, `interpolate_bilinear` | rounding analysis |
| C85 | `thumbnail` with its four cases | block sums by induction; rounding analysis; false in corners: witnesses |
| C86 | `filter3x3` | loop invariants; exactness for integer kernels; error analysis of the two sums and the quotient for fractional ones (`Props/Filter3x3Frac.lean`) |
| C87 | `blur` | as C82 for the Gaussian |
| C88 | `fast_blur`: box sizes, running sums, transposed passes | running-sum invariant up to rounding drift; box variance algebra |
| C89 | `unsharpen` | pointwise over C87 |
| C90-C92 | AVIF after the AV1 decoder: matrices, fixed-point transforms, the loops of the four layouts, 16-bit planes, alpha, expansion | loop lemmas for zipped chunks; the 30 transforms are checked one by one against the exact coefficients, the error of a pixel follows for all samples; three matrices and the 16-bit white are wrong: witnesses |
| C93 | `contrast`, `contrast_in_place` | pixel-loop lemmas; monotonicity of each rounded step; forward error analysis; witnesses for zero, alpha, NaN, u32 |
| C94 | `huerotate`, `huerotate_in_place`, sine and cosine as parameters | forward error analysis in f64; rows of the matrix sum to one; witnesses for 16-bit, luma and full turn |
| C95 | `vertical_gradient`, `horizontal_gradient`, `Lerp::lerp` | monotone rounded ratio and interpolation; witnesses for one row or column |
| C96 | `buffer_par.rs`: producers cut by arbitrary `split_at` histories; threads as interleaved read/store steps on one memory | induction over the history; invariant over the interleaving |
| C97 | `ImageReader`: format guessing over arbitrary read schedules, `make_decoder`, `decode`, `into_dimensions`, `load`; codecs as parameters | induction over the schedule; case analysis; feature tables disagree for AVIF and DDS: witnesses |
| C98 | `openexr.rs` around the `exr` crate: layer choice, windows, pixel-storing closure, encoder closures | fold over an arbitrary list of closure calls; round trip |
| C99 | `tiff.rs` around the `tiff` crate: `new`, `set_limits`, `orientation`, `read_image`, `cmyk_to_rgb`, `encode` | case analysis; rounding-error bounds for CMYK in f32 |
| C100 | `pcx.rs` `read_image` around the `pcx` crate | row-filling loop invariant; palette loop |
| C101 | `webp/decoder.rs`: `into_frames`, `next`, `read_image` | induction over the calls |
| C102 | cached orientation of `webp/decoder.rs` and `jpeg/decoder.rs` | invariant over the history of calls |
| C103 | `jpeg/decoder.rs` around `zune-jpeg` | case analysis |
| C104 | `qoi.rs`, `webp/encoder.rs`, `avif/encoder.rs` around their crates | C20 for the conversion; witness for an empty grey AVIF |
| C105 | `impl ImageDecoder for Box<T>` over a record of decoder methods with arbitrary state | induction on the sequence of calls; counterexample for TIFF orientation |
| C106 | `save*`, `write_to`, `write_with_encoder`, `open`, `load_from_memory`; encoders as interaction trees over `BufWriter<File>` with a schedule of short and failing writes | refinement: buffered run = unbuffered run, by induction on the program |
| C107 | same, failing writes | same invariant; counterexamples for the lost flush error and the emptied file |
| C108 | the ten variants with each operation (`Model/DynOps`), `f32` buffers as parameters (supplied by C130) | the functions of imageops are shown to return images of the right size by `Post` rules; sizes from C50; the crop from C52 |
| C109 | `grayscale` | case analysis over the variants, pixels from C55 |
| C110 | the iterators of `buffer.rs` as objects over slices of the samples (`Model/BufferIter`); `std::slice::ChunksExact` from its documentation | simulation: every step of the held objects answers as the list of coordinates in `Spec/BufferIter` |
| C111 | the encoder models of C40, C41, C43, C44, C46, C47, C74 with arbitrary dimensions | case analysis: every arithmetic step fits and every index is in range, `Returns` is closed under bind and loops |
| C112 | the TGA decoder (`Model/Tga.lean`) on arbitrary bytes; specification of the format on the file bytes in `Spec/Tga.lean` | header fields by an iff for the reader chain; packets by induction (also a last packet longer than the image); groups of bytes through colour map, sample order and row order |
| C113 | the HDR decoder (`Model/Hdr.lean`) on arbitrary bytes; scanline grammar in `Spec/Hdr.lean` | exactness of the two scanline decoders by induction (`Proofs/HdrScan.lean`), rows by induction, values exact in single precision |
| C114 | `HdrDecoder::with_strictness` on arbitrary bytes; header grammar in `Spec/Hdr.lean` | induction over the header lines with the metadata of the attributes read so far as invariant (`Proofs/HdrHeader.lean`) |
| C115 | the PNM decoder (`Model/PnmDecoder.lean`) on arbitrary P1 to P6 files; grammar of header and raster in `Spec/Pnm.lean` | iff for the word scanner with comments and for the number parser (`Proofs/PnmFile.lean`), for each raster kind (`Proofs/PnmRaster.lean`), scaling by the error analysis of single precision (`Proofs/PnmScale.lean`); unambiguity from determinism of the decoder |
| C116 | the PNM decoder on arbitrary P7 files; grammar of the header lines in `Spec/Pam.lean`, raster of `Spec/Pnm.lean` | iff for the line loop and for the accumulated fields (`Proofs/PamFile.lean`), then the raster of C115; witnesses for untyped files above 255, for GRAYSCALE with depth 0 and for blank lines |
| C117 | `read_rect` of the BMP decoder: `load_rect` with the whole image as its only scanline, the working buffer with arbitrary contents | `read_image_data` does not depend on the buffer (`Props/BmpRect.lean`: `readImageData_any`, from the exact results of C42 and C75), then C33; a file that fails is applied to C33 with two different images |
| C118 | the JPEG files of C44, decoded to samples with the exact inverse transform (`Spec/JpegSamples.lean`) | the 8 by 8 cosine basis is orthonormal (`Proofs/DctInverse.lean`), so the squared error of the samples of a block is that of its coefficients, which C44 bounds; colours by the inverse of the JFIF conversion |
| C119 | `vertical_sample`, `horizontal_sample`, `resize`, `blur` with `f32` samples (`Samp.float`) | the two-pass error bound `two_pass_gen` (any sample type) with the clamp to `0 ..= 1` of `f32`; `C119_clip_false`: larger samples become 1 |
| C120 | `invert`, `contrast`, `brighten`, `huerotate`, `grayscale` on `f32` samples (`Model/FloatImage.lean`) | rounding errors of each operation (`Proofs/FloatImage.lean`) and the loops of C17, C93, C94; `C120_brighten_false`: `brighten` goes through `i32` |
| C121 | `Blend` for `Rgba<f32>` and `LumaA<f32>` (`Model/FloatImage.lean`), `overlay` | forward error of the source-over formula (`Proofs/FloatBlend.lean`), C12 for the image; `C121_opaque_false` |
| C122 | `thumbnail` on `f32` samples (`Model/FloatThumbnail.lean`) | rounding error of the sums of a block (`Proofs/FloatThumbnail.lean`) with the spans of C85; `C122_mean_false`: every block mean is 1/2 too large |
| C123 | `unsharpen` on `f32` samples (`Model/FloatFilter.lean`) | `blur` by C119, then the loop of C89; `C123_unchanged_false`: the differences are taken after cutting to integers |
| C124 | `fast_blur` on `f32` samples (`Model/FastBlur.lean`, which is generic in the sample type) | the loops of C88 with the running sums as functions (`Proofs/FastBlurFloat.lean`), rounding errors along a row, six passes of means that do not enlarge errors |
| C125 | `filter3x3` on `f32` samples (`Model/Sample.lean`, generic in the sample type) | the error of the nine rounded sums as in C86, without the final truncation |
| C126 | `resize` with `FilterType::CatmullRom` (`bc_cubic_spline`, `catmullrom_kernel`) | the kernel in `f32` against the exact cubic (`cubic_value`); the positive part of the weights is bounded below by the middle pixel (enlarging) or by the middle run (shrinking) and the negative lobes above (`Lobed`), so the division is well conditioned (`SignedKernel.taps`), then both passes (`signed_picture`) |
| C127 | `resize` with `FilterType::Lanczos3` when enlarging (`sinc`, `lanczos`, `lanczos3_kernel`) | `sinc` is half-Lipschitz (as an integral of cosines), so the `f32` kernel is close to the real one given an accurate `sin` (`lanczos_value`); the two middle weights are at least 1 in sum and the lobes at most 0.32, or at the border 0.59 and 0.19 (`Lobed.enlarge2`); the picture lemma of C126 for rational approximations of the weights, then their limit (`lanczos_limit`) |
| C128 | `DynamicImage::new` and its relatives, `as_*`, `as_mut_*`, `into_*`, `From` both ways, `clone_from`, flat views, `as_bytes` | one table per family indexed by the colour type; cases over variants and colour types on top of C06 (`ImageBuffer::new`), C20 (conversion), C26 (flat samples); bytes by induction over the samples |
| C129 | `try_encode_frames`, `collect_frames`; decoding a GIF and encoding its frames again | induction over the sequence; C76 (the frames of a file are the pictures of the specification, in tight containers), then C78 (encoding and its round trip) |
| C130 | `f32` samples as IEEE 754 bit patterns, the `f32` variants in conversions, `get_pixel`/`put_pixel`, `invert`, `grayscale` and the buffer operations (`Model/FloatDyn`) | patterns and values are inverse to each other (24-bit significands of multiples of 2^-149); pixels from C51 and C120; sizes by the `Post` rules of C108 |
| C131 | `get_mut_sample`, `index_mut`, `image_mut_slice`, `get_pixel_mut` as an update followed by the end of the borrow (`Model/FlatMut`) | the strided position and `C22_fits`; one element of the list changes; aliasing from C23 |
| C132 | `blend_pixel` of `DynamicImage` (conversion, then the blend of the buffer's pixel type) and `imageops::overlay` with a `DynamicImage` at the bottom (`Model/DynBlend`) | conversions from C52, blends from C49 and C121, the rectangle from C11; two nested loops that change one place per step |
| C133 | the trait instances of `DynamicImage` with the generic functions of C07, C09-C13 | `LawfulView` for all ten types, so that the theorems about views apply; one lemma for `put_pixel` and the nested loop of C132 for `replace`, `copy_from`, `overlay`, `tile` |
| C134 | the closure methods of `Pixel` on channel lists, closures as state-passing functions that may panic | specification `runCalls`: the sequence of calls; induction for `map`, `map2`; cases on the four pixel types for the alpha variants |
| C135 | the length assertion at the head of each `read_image`; `read_image` of farbfeld and HDR into the caller's buffer (`Model/ReadImage`) | the assertion fails for every other length; loop invariant for the copying loop of HDR with the number of pixels from C113 |
| C136 | the QOI wrapper around a crate that is a parameter (`Model/ReadImage`), with the encoder of C104 | cases on the outcome of the crate; the round trip from the assumption that the crate decodes what it encodes |
| C137 | `SubImage` of C09 at arbitrary coordinates, sequences of writes, `change_bounds` | case analysis on the checked sums; loop invariant over the list of writes; a rule for loops one of whose steps panics |
| C138 | the length assertions of the encoders with `buffer_size`; HDR counts whole pixels only | `buffer_size` panics or is the saturated number of bytes, so the assertion fails for every other length |
| C139 | the derived `PartialEq` and `Hash` of `ImageBuffer`, `PartialEq` of `DynamicImage`; `==` of samples is a parameter | sample positions are pixel positions times channels, in both directions |

Status per property is in MANIFEST.json.

## What is modelled

| Rust | Model |
|---|---|
| `src/image.rs` (`GenericImageView`, `GenericImage`, `SubImage`, `Pixels`, `load_rect`, limits-free decoder helpers, `ImageFormat`) | `Model/Image`, `GenericOps`, `LoadRect`, `Format` |
| `src/buffer.rs` (`ImageBuffer`, iterators, `copy_within`, conversions, `expand_palette`) | `Model/Buffer`, `Utils`, `Color` |
| `src/flat.rs` | `Model/Flat`, `Model/FlatMut` |
| `src/color.rs`, `src/traits.rs` | `Model/Color`, `FloatOps`, `FloatImage` |
| closure methods of `Pixel` (`src/color.rs`, `src/traits.rs`) | `Model/PixelOps` |
| `read_image` of farbfeld, HDR and the QOI decoder | `Model/ReadImage` |
| `src/dynimage.rs` (dispatch, geometry, colour conversion, from-decoder) | `Model/Dynamic`, `DynBlend`, `DecoderToImage` |
| `src/animation.rs` | `Model/Delay` |
| `src/metadata.rs` | `Model/Metadata` |
| `src/image_reader/` (`Limits`, `guess_format`), `ImageFormat` in `src/image.rs` | `Model/Limits`, `Format` |
| `src/math/*` | `Model/FloatOps`, `Affine`, `Utils` |
| `src/image_reader/image_reader_type.rs` | `Model/Reader` |
| `src/codecs/openexr.rs` | `Model/OpenExr` |
| `src/buffer_par.rs` | `Model/ParIter` |
| `src/imageops/affine.rs`, `mod.rs`, `colorops.rs`, `sample.rs`, `fast_blur.rs` | `Model/Affine`, `ImageOps`, `Color`, `Sample`, `FastBlur`, `ColorAdjust`, `FloatImage`, `FloatThumbnail`, `FloatFilter` |
| `src/codecs/farbfeld.rs`, `tga/*`, `pnm/*`, `bmp/*`, `hdr/*`, `dds.rs`, `dxt.rs`, `ico/*` | the files of those names |
| `src/codecs/jpeg/{encoder,entropy,transform}.rs` | `Model/JpegEncoder`, `JpegEntropy`, `JpegDct` |
| `src/codecs/avif/{decoder,yuv}.rs` after `mp4parse` and `dav1d` (a `Picture` is a parameter) | `Model/Avif` |
| `src/codecs/tiff.rs`, `pcx.rs`, `qoi.rs` (encoder), `webp/*`, `jpeg/decoder.rs`, `avif/encoder.rs`, the crates being parameters | `Model/Tiff`, `Pcx`, `Webp`, `JpegDecoder`, `CrateEncoders` |
| `impl ImageDecoder for Box` (`src/image.rs`) | `Model/Boxed` |
| saving and opening: `free_functions.rs`, `save`, `write_to` in `buffer.rs` and `dynimage.rs`; std's `BufWriter<File>` from its documentation | `Model/Save` |
| operations of `dynimage.rs` (`resize…`, `thumbnail…`, `blur`, `grayscale`, …) | `Model/DynOps` |
| `buffer.rs`: `next`, `next_back`, `len` of the iterators, shared and mutable | `Model/BufferIter` |
| `src/codecs/gif.rs`, `png.rs` (still, APNG) | `Model/Gif`, `Png`, `Apng`; the `gif` and `png` crates are parameters |

## What is not modelled

* The third-party crates (`png`, `gif`, `zune-jpeg`, `tiff`, `image-webp`, `exr`, `qoi`, `dav1d`, `ravif`,
  `weezl`, ...). Where a wrapper in this repository is modelled, the crate is a parameter: an arbitrary list
  of events or outcomes, plus an explicit hypothesis where the property needs it (`Png.Faithful`,
  `Png.Total`, `Png.Prefix`, `PngRoundtrip`; a length-preserving quantiser for GIF).
* f32 pixels in the image operations, except `resize` and `blur` (C119), the colour adjustments (C120), blending (C121), `thumbnail` (C122), `unsharpen` (C123), `fast_blur` (C124), `filter3x3` (C125) and where another theorem says so; f64 pixels everywhere.
* Writers and readers are ideal (every write succeeds, a read fails only at the end of the data), except in the
  `AutoBreak` and scanline-buffer models, where the schedule of short reads and writes is arbitrary.
* Memory: allocation never fails; `unsafe` blocks are taken to do what their safe description says.
* `usize` is 64 bits wide; 32-bit targets are not covered.

## Where the code and the claim disagree

Every disagreement found is a theorem with the suffix `_false` (a concrete input on which the modelled code
does not do what the property says) beside the theorem for the part that holds. They are listed in the
MANIFEST notes; those that a user is most likely to meet: `C36_first_pixel_false` (palette expansion
skips pixel (0,0)), `C59_range_check_false` (PNM range check inverted), `C40_bitmap_ascii_false` (ASCII
bitmaps inverted), `C60_total_false` and `C66_decode_total_false` (panic on crafted PNM and HDR files),
`C79_frames_false` (APNG background disposal lost), `C23_zero_stride_false` (aliasing layout reported as
unaliased), `C28_disjoint_false` (an AVIF file guessed as ICO), `C97_avif_false`, `C97_dds_false` (`reading_enabled` is wrong about AVIF and DDS), `C90_matrix_false` (BT.470M, SMPTE 170M and 240M), `C92_white_false` (10-bit white is 65472), `C49_*_false`/`C58_opaque_bottom_false` (blending), `C85_*_false`
(thumbnail), `C86_empty_false`, `C86_zero_sum_false` (weights whose sum is zero but is not computed as zero), `C87_*_false`, `C88_*_false`, `C89_wide_false` (panics in the filters), `C93_*_false` (contrast), `C94_*_false` (hue), `C95_single_row_false` (one-row gradient panics),
`C43_width_32768_false`, `C65_*_false` (HDR widths and extreme values), `C30_*_false` (delays), `C33_rows_dropped_false`,
`C99_cmyk_exact_false` (TIFF CMYK), `C104_avif_empty_false`, `C105_tiff_false` (a boxed TIFF decoder loses the orientation),
`C139_larger_false` (`==` compares samples behind the picture), `C138_hdr_false` (the HDR encoder accepts buffers that are too long), `C137_bounds_false` (a view gives access to pixels beyond its bounds), `C135_jpeg_false`, `C135_qoi_false` (`read_image` does not panic for a buffer of a wrong length), `C132_transparent_false` (`blend_pixel` of a transparent pixel overwrites an image without alpha), `C132_overlay_false` (`overlay` cuts 16-bit samples to 8 bits), `C133_copy_within_false` and `C133_exact_false` (so do `copy_within` and `copy_from`),
`C123_unchanged_false` (`unsharpen` of an `f32` image does nothing), `C122_mean_false` (`thumbnail` of an `f32` image is 1/2 too bright), `C120_brighten_false` (`brighten` of an `f32` image leaves only 0 and 1), `C119_clip_false` (HDR samples above 1 are cut by `resize`), `C117_dropped_false` (`read_rect` into a buffer that is too short for its row pitch), `C115_missing_false` (text PNM files that lack numbers), `C116_untyped_false`, `C116_depth_false`, `C116_blank_false` (PAM files), `C112_right_to_left_false`, `C112_map_origin_false`, `C112_wide_index_false`, `C112_unused_map_false`, `C112_unknown_type_false` (TGA files that are shown wrongly), `C106_gif_false` (save and write_to differ for GIF), `C107_ok_false` (save is Ok although the last write failed), `C107_failed_false` (a failed save empties the old file), `C108_fill_empty_false` (resize_to_fill of an empty image panics), `C109_empty_false` (grayscale of a 0 × 2 colour image panics), `C110_polled_false` (an enumerating iterator asked 2^32 times after its end panics), `C111_pnm_false`, `C111_bmp_false`, `C111_hdr_false` (encoder panics).
