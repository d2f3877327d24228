{"id": "C01", "title": "Image buffers are created only over containers that hold every pixel", "statement": "ImageBuffer::from_raw(w, h, c) returns Some exactly when w*h*channels does not overflow usize and is at most c.len(); for every buffer so obtained every (x, y) with x < w and y < h can be read with get_pixel without an out-of-bounds panic, and get_pixel returns the channels samples starting at (y*w + x)*channels.", "quantifier": "all u32 widths and heights, all channel counts, all containers, all coordinates", "why_tests_cant": "The index arithmetic must stay inside the container for every size, including products near the usize limit that tests never allocate.", "anchors": ["src/buffer.rs: ImageBuffer::from_raw, check_image_fits, image_buffer_len, pixel_indices, get_pixel"]}
{"id": "C02", "title": "put_pixel and get_pixel form an array of pixels", "statement": "After put_pixel(x, y, p) on an image buffer, get_pixel(x, y) returns p, get_pixel at every other in-bounds coordinate returns what it returned before, dimensions and container length are unchanged, and an out-of-bounds put_pixel panics instead of writing.", "quantifier": "all buffers, coordinates, pixels and all finite sequences of put_pixel calls", "why_tests_cant": "Aliasing between two coordinates would only show for particular size/coordinate pairs and histories of writes.", "anchors": ["src/buffer.rs: put_pixel, get_pixel_mut, pixel_indices_unchecked"]}
{"id": "C03", "title": "get_pixel_checked is Some exactly for in-bounds coordinates", "statement": "get_pixel_checked(x, y) returns Some(get_pixel(x, y)) when x < width and y < height, and None otherwise; it never panics.", "quantifier": "all image buffers (including buffers whose container is longer than the image) and all u32 coordinates", "why_tests_cant": "Saturating arithmetic and container slack interact only at particular sizes; the existing test only tries a tight buffer.", "anchors": ["src/buffer.rs: get_pixel_checked, get_pixel_mut_checked"]}
{"id": "C04", "title": "Buffer iterators visit every pixel exactly once in row-major order", "statement": "ImageBuffer::pixels, enumerate_pixels, rows and enumerate_rows produce exactly the pixels get_pixel returns, row by row from the top and left to right, with the right coordinates, each once, and report exact lengths.", "quantifier": "all image buffers, including those with width or height zero and oversized containers", "why_tests_cant": "Must hold for all dimensions, not only the sampled ones; off-by-one wrap of the x counter depends on the width.", "anchors": ["src/buffer.rs: Pixels, EnumeratePixels, Rows, EnumerateRows"]}
{"id": "C05", "title": "GenericImageView::pixels enumerates all in-bounds coordinates", "statement": "For every view, the iterator returned by GenericImageView::pixels yields (x, y, get_pixel(x, y)) for every y < height and x < width in row-major order and then ends, never reading an out-of-bounds coordinate.", "quantifier": "all image views and dimensions, including width 0", "why_tests_cant": "The wrap-around test on the x counter behaves differently for degenerate widths; tests sample only a few sizes.", "anchors": ["src/image.rs: Pixels::next, GenericImageView::pixels"]}
{"id": "C06", "title": "from_fn and from_pixel fill every coordinate", "statement": "from_fn(w, h, f) yields a w x h buffer whose pixel at (x, y) is f(x, y); from_pixel(w, h, p) has p everywhere; new(w, h) is zero everywhere; the container length is exactly w*h*channels.", "quantifier": "all dimensions whose size fits usize, all functions f, all pixels", "why_tests_cant": "Must hold for each coordinate of each size.", "anchors": ["src/buffer.rs: ImageBuffer::new, from_pixel, from_fn"]}
{"id": "C07", "title": "copy_from copies exactly the other image or fails cleanly", "statement": "dst.copy_from(src, x, y) returns Err(DimensionMismatch) and leaves dst unchanged when src placed at (x, y) does not fit inside dst; otherwise it returns Ok, pixel (x+i, y+k) equals src pixel (i, k), and all other pixels are unchanged. It never panics.", "quantifier": "all images, all u32 offsets, including offsets near u32::MAX", "why_tests_cant": "The u32 sum in the bounds check can overflow only for extreme offsets.", "anchors": ["src/image.rs: GenericImage::copy_from"]}
{"id": "C08", "title": "copy_within has memmove semantics", "statement": "copy_within(rect, x, y) panics when the top-left corner of the source or destination rectangle is outside the image, returns false and changes nothing when a corner is inside but the rectangle does not fit; otherwise it returns true and afterwards pixel (x+i, y+k) equals the pixel that was at (rect.x+i, rect.y+k) before the call, for all i, k in the rectangle, all others unchanged, however the rectangles overlap. The generic implementation and the ImageBuffer specialisation agree.", "quantifier": "all images, rectangles, destinations and overlaps", "why_tests_cant": "Correctness depends on iteration order versus overlap direction for every pair of rectangles; tests sample four cases.", "anchors": ["src/image.rs: GenericImage::copy_within", "src/buffer.rs: ImageBuffer::copy_within"]}
{"id": "C09", "title": "Sub-image views translate coordinates and compose", "statement": "view/sub_image(x, y, w, h) panics unless the rectangle lies inside the image; otherwise its get_pixel(i, j) is the parent's pixel (x+i, y+j), a view of a view equals the view at summed offsets, to_image copies exactly that rectangle, and put_pixel through it changes exactly one parent pixel.", "quantifier": "all images, rectangles, nesting depths and coordinates", "why_tests_cant": "Composition and confinement are for-all statements over nested offsets.", "anchors": ["src/image.rs: SubImage, SubImageInner, GenericImageView::view, GenericImage::sub_image"]}
{"id": "C10", "title": "crop clamps to the image", "statement": "imageops::crop/crop_imm never panics and yields a view of the intersection of the requested rectangle with the image: its pixels are the parent's pixels at the translated coordinates and it is always inside the parent.", "quantifier": "all images and all u32 rectangles", "why_tests_cant": "Unchecked u32 subtraction must never underflow for any request.", "anchors": ["src/imageops/mod.rs: crop, crop_imm, crop_dimms"]}
{"id": "C11", "title": "Overlay geometry is the exact intersection and never out of bounds", "statement": "The rectangle used by overlay/replace for a top image placed at signed offset (x, y) consists exactly of the bottom pixels covered by the top image, mapped to the right top pixels; both rectangles lie inside their images and no intermediate computation overflows. overlay_bounds gives the same size for non-negative offsets.", "quantifier": "all u32 dimensions and all i64 offsets", "why_tests_cant": "i64 saturation and u32 casts matter only near the extremes of a 2^64-sized domain.", "anchors": ["src/imageops/mod.rs: overlay_bounds, overlay_bounds_ext"]}
{"id": "C12", "title": "replace, overlay and tile write exactly the covered pixels", "statement": "After replace(bottom, top, x, y) each bottom pixel covered by top equals the corresponding top pixel and every other pixel is unchanged; overlay likewise stores the blend of the old bottom pixel with the top pixel; tile stores at every (x, y) the blend with top pixel (x mod tw, y mod th). None of them panics on in-range images.", "quantifier": "all images, offsets and pixel types", "why_tests_cant": "Needs every coordinate of every placement, including negative and partially overlapping ones.", "anchors": ["src/imageops/mod.rs: overlay, replace, tile"]}
{"id": "C13", "title": "Rotations and flips move pixels to the right place and form the dihedral group", "statement": "rotate90/180/270 and flips map pixel (x, y) to its geometrically rotated/mirrored position with swapped dimensions where required; rotating four times by 90 is the identity, rotate90 twice is rotate180, rotate90 after rotate270 is the identity, flips are involutions, flipH after flipV is rotate180; *_in fails with DimensionMismatch exactly when destination dimensions are wrong.", "quantifier": "all images of all sizes and pixel types", "why_tests_cant": "Group laws quantify over all images; tests use 3x2 samples.", "anchors": ["src/imageops/affine.rs"]}
{"id": "C14", "title": "In-place flips and rotations equal their copying versions", "statement": "flip_horizontal_in_place, flip_vertical_in_place and rotate180_in_place leave the image equal to what the copying function returns, for even and odd dimensions.", "quantifier": "all images of all sizes", "why_tests_cant": "The swap loops stop at half the image; parity and middle rows must be right for every size.", "anchors": ["src/imageops/affine.rs: flip_horizontal_in_place, flip_vertical_in_place, rotate180_in_place"]}
{"id": "C15", "title": "Exif orientation codes round-trip and are found in either byte order", "statement": "Orientation::from_exif(o.to_exif()) = Some(o); from_exif(n) is Some exactly for 1..=8 and to_exif inverts it; parsing an Exif chunk never fails or panics on any bytes, returns the orientation of the first matching entry of the first IFD, in both byte orders.", "quantifier": "all orientations, all bytes n, all Exif chunks", "why_tests_cant": "The parser must be total over arbitrary untrusted byte strings and offsets.", "anchors": ["src/metadata.rs: Orientation::from_exif, to_exif, from_exif_chunk"]}
{"id": "C16", "title": "Applying an orientation undoes the encoded camera transform", "statement": "DynamicImage::apply_orientation performs exactly the rotation/flip the Exif orientation names (pixel (x, y) of the stored image appears at the displayed position), for each of the eight orientations, and dimensions are swapped exactly for the four transposing ones.", "quantifier": "all images and all eight orientations", "why_tests_cant": "Quantifies over all images.", "anchors": ["src/dynimage.rs: apply_orientation", "src/imageops/affine.rs"]}
{"id": "C17", "title": "Inverting twice restores the image and never touches alpha", "statement": "imageops::invert maps every colour sample v to MAX - v and leaves alpha alone; applying it twice is the identity; it never overflows for unsigned samples.", "quantifier": "all unsigned sample types, all pixel types, all images", "why_tests_cant": "For-all over all pixel values and images.", "anchors": ["src/color.rs: Invert", "src/imageops/colorops.rs: invert"]}
{"id": "C18", "title": "8-bit/16-bit sample conversion is exact rounding and lossless upward", "statement": "u16::from_primitive(u8) equals v*257, u8::from_primitive(u16) equals round(v*255/65535), converting 8->16->8 is the identity, both are monotone and map 0 to 0 and MAX to MAX.", "quantifier": "all u8 and all u16 values", "why_tests_cant": "The claimed equality with exact rational rounding is for every value; stated in the source only as 'tested exhaustively in Python'.", "anchors": ["src/color.rs: FromPrimitive<u16> for u8, FromPrimitive<u8> for u16"]}
{"id": "C19", "title": "Luma conversion preserves greys, is monotone and stays in range", "statement": "Converting an RGB pixel to luma yields floor((2126 r + 7152 g + 722 b)/10000): it never overflows, is at most the largest channel and at least the smallest, maps grey (v,v,v) to v, and is monotone in each channel; hence grey -> RGB -> grey is lossless.", "quantifier": "all RGB(A) pixels over u8 and u16 (and u32/u64)", "why_tests_cant": "2^24 and 2^48 pixel values; overflow freedom of the enlarged type must be universal.", "anchors": ["src/color.rs: rgb_to_luma, FromColor impls", "src/traits.rs: Enlargeable"]}
{"id": "C20", "title": "Pixel type conversions keep colour and alpha where representable", "statement": "Adding alpha sets it to MAX and removing it again restores the pixel; grey to RGB replicates the sample; converting Rgb/Luma to Rgba/LumaA of wider depth and back restores the pixel; ConvertBuffer converts every pixel independently and keeps dimensions.", "quantifier": "all pixels of Luma, LumaA, Rgb, Rgba over u8/u16, all images", "why_tests_cant": "16x type pairs times all values.", "anchors": ["src/color.rs: FromColor impls", "src/buffer.rs: ConvertBuffer"]}
{"id": "C21", "title": "Colour type tables are mutually consistent", "statement": "For each ColorType, bits_per_pixel = 8*bytes_per_pixel = bits of the corresponding ExtendedColorType, channel_count agrees, has_alpha/has_color match the channel count, and buffer_size(w, h) is ceil(w*bpp/8)*h saturated at u64::MAX without intermediate overflow.", "quantifier": "all colour types and all u32 dimensions", "why_tests_cant": "Saturation only matters for huge dimensions.", "anchors": ["src/color.rs: ColorType, ExtendedColorType::buffer_size"]}
{"id": "C22", "title": "SampleLayout::min_length is exactly the needed buffer length", "statement": "If fits(len) holds then every in-bounds (c, x, y) has an index below len, index and in_bounds_index agree, and nothing overflows; min_length is the smallest such len; None is returned exactly when the last index does not fit usize.", "quantifier": "all layouts with arbitrary strides and extents", "why_tests_cant": "Strides are arbitrary usize values supplied over FFI.", "anchors": ["src/flat.rs: SampleLayout::min_length, fits, index, in_bounds_index, index_ignoring_bounds"]}
{"id": "C23", "title": "A layout reported as unaliased has pairwise distinct sample indices", "statement": "If has_aliased_samples() is false then two different in-bounds sample coordinates never share an index.", "quantifier": "all layouts with arbitrary strides and extents", "why_tests_cant": "Strides are arbitrary; the soundness of mutable views rests on this for all of them.", "anchors": ["src/flat.rs: has_aliased_samples, increasing_stride_dims"]}
{"id": "C24", "title": "Packed constructors produce the promised normal form", "statement": "row_major_packed(c, w, h) is_normal(RowMajorPacked) and column_major_packed is_normal(ColumnMajorPacked), as documented ('will surely be'), and normal forms are downward closed: a layout normal for a form is normal for every weaker form.", "quantifier": "all channel counts and dimensions; all layouts for downward closure", "why_tests_cant": "Degenerate extents are not sampled by tests.", "anchors": ["src/flat.rs: row_major_packed, column_major_packed, is_normal, NormalForm"]}
{"id": "C25", "title": "Views over foreign buffers never read or write out of bounds", "statement": "When as_view / as_view_mut succeeds, get_pixel at every in-bounds coordinate reads only indices inside the buffer and returns the samples at the strided positions; put_pixel writes only inside the buffer and changes the addressed pixel's samples; shrink_to preserves this.", "quantifier": "all buffers, layouts, pixel types and coordinates", "why_tests_cant": "Arbitrary strides from FFI.", "anchors": ["src/flat.rs: FlatSamples::as_view, as_view_mut, View, ViewMut"]}
{"id": "C26", "title": "ImageBuffer <-> FlatSamples conversion is lossless", "statement": "into_flat_samples followed by try_into_buffer with the same pixel type yields an equal buffer; try_into_buffer never reaches its internal panic; get_sample agrees with get_pixel's channel.", "quantifier": "all image buffers, all FlatSamples", "why_tests_cant": "The internal panic is guarded by layout predicates over arbitrary layouts.", "anchors": ["src/flat.rs: try_into_buffer", "src/buffer.rs: into_flat_samples, sample_layout"]}
{"id": "C27", "title": "Decoder memory limit accounting is exact", "statement": "reserve(n) fails without effect exactly when n exceeds the remaining budget, otherwise lowers it by n; over any history of reserve/free in which only reserved memory is freed, the sum of live reservations never exceeds the initial max_alloc and remaining + live = initial; reserve_buffer additionally rejects exactly the images wider or higher than the limits; with no limit set nothing is ever rejected.", "quantifier": "all limits and all finite histories of reserve/reserve_buffer/free calls", "why_tests_cant": "History-quantified invariant.", "anchors": ["src/image_reader/mod.rs: Limits"]}
{"id": "C28", "title": "Format guessing is deterministic by signature and prefix-stable", "statement": "guess_format returns a format exactly when the buffer starts with one of its (masked) signatures; no buffer matches signatures of two different formats, so table order is irrelevant; appending bytes never changes a successful guess.", "quantifier": "all byte buffers", "why_tests_cant": "All byte strings.", "anchors": ["src/image_reader/free_functions.rs: guess_format_impl, MAGIC_BYTES"]}
{"id": "C29", "title": "Extensions and MIME types map back to their format", "statement": "Every extension listed by extensions_str of a format is mapped back to that format by from_extension, in any letter case; to_mime_type is mapped back by from_mime_type for every format except farbfeld; can_write implies can_read; all() lists each format once.", "quantifier": "all formats, all extension strings in any case", "why_tests_cant": "All strings; case-insensitivity over arbitrary case patterns.", "anchors": ["src/image.rs: ImageFormat"]}
{"id": "C30", "title": "Delay::from_saturating_duration finds the closest representable ratio", "statement": "For every duration the returned ratio is well-formed (positive denominator, no overflow), equals the duration exactly when representable with u32 parts, otherwise is at least as close to the fractional millisecond part as any fraction with an admissible denominator, and saturates for durations above u32::MAX ms.", "quantifier": "all durations", "why_tests_cant": "Best-approximation is a statement over all competing fractions, for all 2^96 durations; includes u32 overflow freedom.", "anchors": ["src/animation.rs: Delay::from_saturating_duration, closest_bounded_fraction"]}
{"id": "C31", "title": "Delay to Duration conversion truncates by less than a nanosecond", "statement": "Duration::from(Delay) never panics and differs from the exact ratio by less than one nanosecond, downward; converting a duration that is a whole number of nanoseconds below about 4.29 s to a Delay and back is the identity; Delay comparison agrees with comparison of the rational values.", "quantifier": "all delays and durations", "why_tests_cant": "2^64 ratios.", "anchors": ["src/animation.rs: From<Delay> for Duration, Ratio Ord"]}
{"id": "C32", "title": "farbfeld encode then decode is the identity", "statement": "For every RGBA16 image, decoding the bytes written by FarbfeldEncoder yields the same dimensions and sample bytes; a truncated file is rejected and never yields an image; the decoder accepts exactly files starting with the magic and enough data.", "quantifier": "all images, all truncation points, all byte strings", "why_tests_cant": "All images and all crash/truncation points.", "anchors": ["src/codecs/farbfeld.rs"]}
{"id": "C33", "title": "Reading a rectangle equals cropping the full image", "statement": "read_rect (load_rect) on any scanline-based decoder writes into the output exactly the bytes of the requested rectangle as in the fully decoded image, row by row at the given pitch, and rejects rectangles outside the image, whatever the scanline size and earlier calls.", "quantifier": "all images, rectangles, row pitches and scanline sizes", "why_tests_cant": "Scanline buffering logic interacts with every alignment of rectangle and scanline.", "anchors": ["src/image.rs: load_rect", "src/codecs/farbfeld.rs: read_rect"]}
{"id": "C34", "title": "Buffered scanline reading delivers the exact byte stream", "statement": "Repeated reads with arbitrary request sizes through the scanline read buffer return the concatenation of the scanlines, in order, without loss or duplication, and return 0 exactly at the end.", "quantifier": "all scanline sizes, stream lengths and sequences of request sizes", "why_tests_cant": "Schedule of read sizes is arbitrary.", "anchors": ["src/image.rs: ImageReadBuffer"]}
{"id": "C35", "title": "Packed low-bit-depth expansion scales every sample", "statement": "Expanding packed 1/2/4-bit rows yields for every pixel of every row its value times 255/(2^bits-1), skipping padding bits at row ends; output length is width*rows.", "quantifier": "all bit depths, row widths and buffers", "why_tests_cant": "Padding skip depends on width modulo 8/bits.", "anchors": ["src/utils/mod.rs: expand_bits"]}
{"id": "C36", "title": "Palette expansion maps every index", "statement": "GrayImage::expand_palette replaces every pixel index by its palette colour with alpha 0 exactly for the transparent index and 255 otherwise.", "quantifier": "all grey images, palettes and transparent indices", "why_tests_cant": "In-place backwards expansion must not overwrite unread indices for any size and must reach every pixel.", "anchors": ["src/buffer.rs: GrayImage::expand_palette", "src/utils/mod.rs: expand_packed"]}
{"id": "C37", "title": "TGA run-length encoding decodes to the same pixels", "statement": "For any pixel sequence, decoding the packets written by the TGA encoder with the TGA run-length decoder yields exactly the input; every packet header encodes 1..128 pixels.", "quantifier": "all pixel sequences and pixel sizes", "why_tests_cant": "Run boundaries at 128 and raw/RLE switches depend on the whole pixel history.", "anchors": ["src/codecs/tga/encoder.rs: run_length_encode", "src/codecs/tga/decoder.rs: read_all_encoded_data"]}
{"id": "C38", "title": "TGA files round-trip", "statement": "Encoding an L8, La8, Rgb8 or Rgba8 image of size 1..65535 in either dimension with or without RLE and decoding the result yields the same dimensions, colour type and bytes.", "quantifier": "all images of the supported colour types", "why_tests_cant": "All images; header and orientation bits interact.", "anchors": ["src/codecs/tga/encoder.rs", "src/codecs/tga/decoder.rs", "src/codecs/tga/header.rs"]}
{"id": "C39", "title": "PNM binary files round-trip", "statement": "Encoding a grey or RGB image as binary PGM/PPM/PAM and decoding it yields the same dimensions, colour type and samples.", "quantifier": "all images of the supported colour types", "why_tests_cant": "Decimal header printing and parsing must agree for all dimension values.", "anchors": ["src/codecs/pnm/encoder.rs", "src/codecs/pnm/decoder.rs"]}
{"id": "C40", "title": "PNM ASCII files round-trip and lines are wrapped", "statement": "Encoding as ASCII PNM and decoding yields the same samples; the automatic line breaking never splits a token, never alters token order, and no line exceeds the capacity unless a single token does.", "quantifier": "all sample sequences, all line capacities, all partial-write schedules of the underlying writer", "why_tests_cant": "Depends on all token length sequences and short-write schedules.", "anchors": ["src/codecs/pnm/autobreak.rs", "src/codecs/pnm/encoder.rs: SampleWriter"]}
{"id": "C41", "title": "BMP files round-trip", "statement": "Encoding an Rgb8 or Rgba8 image as BMP and decoding it yields the same dimensions and bytes; grey images (with or without alpha, which is not stored) decode to RGB with equal samples; images with a palette of 1 to 256 colours decode to the colours of their indices. The declared file size equals the number of bytes written, each row is padded to a multiple of four and nothing follows the rows.", "quantifier": "all images that the encoder accepts (fails for empty images and sides over 65535, which the encoder accepts and the decoder refuses)", "why_tests_cant": "Padding depends on width mod 4; size fields must not overflow for any accepted size.", "anchors": ["src/codecs/bmp/encoder.rs", "src/codecs/bmp/decoder.rs"]}
{"id": "C42", "title": "BMP run-length decoding never writes outside a row", "statement": "For any RLE4/RLE8 byte stream the decoder terminates without panicking, and when it succeeds the image is the one that the run-length instructions draw on a black canvas: every instruction paints only pixels inside the current row, deltas move the cursor, unpainted pixels are black.", "quantifier": "all byte streams", "why_tests_cant": "Untrusted input: every byte string.", "anchors": ["src/codecs/bmp/decoder.rs: read_rle_data, RLEInsn"]}
{"id": "C43", "title": "Radiance HDR files round-trip at the RGBE level", "statement": "Decoding a file written by the HDR encoder gives the dimensions and exactly the RGBE pixels that were written, for compressed scanlines whatever the pixels, and for the uncompressed widths (below 8, above 32768) as long as no pixel looks like a run-length marker.", "quantifier": "all RGBE images", "why_tests_cant": "Run detection thresholds depend on arbitrary byte histories.", "anchors": ["src/codecs/hdr/encoder.rs: encode_pixels, rle_compress", "src/codecs/hdr/decoder.rs: with_strictness, read_scanline, decode_component, decode_old_rle"]}
{"id": "C44", "title": "JPEG files are decodable and show the image", "statement": "For every image of 1 to 65535 pixels a side and every quality, pixel density and colour profile that fits, encoding as JPEG succeeds, and the file decodes (by the procedures of ITU-T T.81: segments, byte stuffing, Huffman codes, run lengths, prediction) to the image's dimensions, the encoder's quantisation tables and blocks of coefficients each of which, multiplied by its table entry, is within half the entry plus 4/3 of the exact cosine transform of the image's samples (repeated at the edges). Larger dimensions and other colour types are refused with an error. (False for empty images, for 16-bit images and for the second image written by the same encoder.)", "quantifier": "all images (L, La, Rgb, Rgba with u8 samples), all quantisation tables, densities and profiles", "why_tests_cant": "The bit stream depends on the whole history of blocks; stuffing, runs and sizes have rare cases; the precision claim covers all 256^64 blocks.", "anchors": ["src/codecs/jpeg/encoder.rs: JpegEncoder, BitWriter", "src/codecs/jpeg/entropy.rs", "src/codecs/jpeg/transform.rs: fdct"]}
{"id": "C45", "title": "Huffman code construction is a prefix code", "statement": "The code tables derived from (code lengths, values) assign to distinct symbols codes none of which is a prefix of another, with the specified lengths, and none is all ones.", "quantifier": "all valid length tables", "why_tests_cant": "For-all over tables.", "anchors": ["src/codecs/jpeg/entropy.rs: build_huff_lut_const"]}
{"id": "C46", "title": "Brighten, thresholding and colour maps act per sample and stay in range", "statement": "brighten adds the value to each colour sample clamped to [0, MAX], leaving alpha; BiLevel maps each grey to 0 or 255 by threshold 127 with lookup(index_of(c)) = map_color(c); index_colors yields for each pixel the map index.", "quantifier": "all images, all i32 values", "why_tests_cant": "i32 addition can overflow for extreme values; all images.", "anchors": ["src/imageops/colorops.rs: brighten, BiLevel, index_colors"]}
{"id": "C47", "title": "Dithering yields only palette colours and visits every pixel", "statement": "After dither(image, map) every pixel is a colour of the map and no out-of-bounds pixel is accessed.", "quantifier": "all grey images of all sizes", "why_tests_cant": "Boundary handling differs for 1-wide and 1-high images.", "anchors": ["src/imageops/colorops.rs: dither"]}
{"id": "C48", "title": "S3TC/DXT blocks decode to the right pixels", "statement": "Decoding DXT1/3/5 data of the right length yields exactly width*height pixels, each pixel being that of its 4x4 block (colours less than 4/3 of a level from the exact S3TC value, explicit alpha exact, interpolated alpha rounded down); blocks with equal bytes give equal pixels wherever they are; too little data is an input error; no block bytes cause a panic.", "quantifier": "all block byte strings and all dimensions divisible by four", "why_tests_cant": "Untrusted input; all byte strings.", "anchors": ["src/codecs/dxt.rs: DxtDecoder, decode_dxt_colors, decode_dxt1_row, decode_dxt3_row, decode_dxt5_row"]}
{"id": "C49", "title": "Alpha blending honours fully opaque and fully transparent tops and never panics", "statement": "Blending a fully transparent pixel leaves the bottom unchanged, blending a fully opaque one replaces it, and blending never panics and keeps samples in range.", "quantifier": "all pixel pairs of every integer sample type", "why_tests_cant": "2^64 pixel pairs, rounding near MAX.", "anchors": ["src/color.rs: Blend"]}
{"id": "C50", "title": "Resize dimension computation preserves aspect and never yields zero", "statement": "The dimensions computed for resize / resize_to_fill are at least 1, never exceed the requested box when not filling (up to rounding), cover it when filling, and equal the rounded exact scaled size.", "quantifier": "all u32 dimensions", "why_tests_cant": "2^128 inputs, floating point rounding.", "anchors": ["src/math/utils.rs: resize_dimensions"]}
{"id": "C51", "title": "Float sample conversion round-trips integers", "statement": "u8 -> f32 -> u8 and u16 -> f32 -> u16 conversion of samples is the identity; f32 -> integer conversion is total (NaN, infinities, negatives included), monotone and lands in range.", "quantifier": "all u8/u16 values and all f32 bit patterns", "why_tests_cant": "2^32 float patterns, IEEE rounding.", "anchors": ["src/color.rs: FromPrimitive<f32>, normalize_float"]}
{"id": "C52", "title": "DynamicImage operations preserve the sample type and agree with the per-type operation", "statement": "Cropping, flipping, rotating and inverting a DynamicImage keeps its colour type and acts as the operation on the contained buffer; to_* conversions convert each pixel.", "quantifier": "all dynamic images and operations", "why_tests_cant": "All variants times all images.", "anchors": ["src/dynimage.rs"]}
{"id": "C53", "title": "ICO entry selection picks the best image", "statement": "The ICO decoder selects an entry that is maximal in (colour depth, area) among all directory entries, and 0 in a size byte means 256.", "quantifier": "all directories", "why_tests_cant": "All directory contents and orders.", "anchors": ["src/codecs/ico/decoder.rs: best_entry, DirEntry"]}
{"id": "C54", "title": "Truncated input is never silently accepted", "statement": "For the formats modelled here (farbfeld, TGA, PNM, BMP, HDR, DDS), any proper prefix of an encoder's output that cuts pixel data makes decoding return an error rather than an image; for BMP and DDS, moreover, a truncated version of any file whatever either fails or decodes to the image of the whole file.", "quantifier": "all images and all truncation points", "why_tests_cant": "All crash points of a write.", "anchors": ["src/codecs/"]}
{"id": "C55", "title": "Grayscale conversion yields every pixel's luminance", "statement": "imageops::grayscale / grayscale_alpha return an image of the same dimensions whose pixel at (x, y) is the luminance of the source pixel (identity for grey sources), with alpha kept (MAX if the source has none) in the alpha variant; they never panic.", "quantifier": "every image of every unsigned pixel type and every coordinate", "why_tests_cant": "all sizes, pixel types and sample values", "anchors": ["src/imageops/colorops.rs: grayscale, grayscale_alpha, grayscale_with_type, grayscale_with_type_alpha", "src/color.rs: rgb_to_luma"]}
{"id": "C56", "title": "Decoding arbitrary bytes as TGA never panics", "statement": "For every byte string, decoding it as a TGA image terminates with an error or with an image of one of the four supported colour types whose buffer has exactly width*height*bytes_per_pixel bytes; it never panics.", "quantifier": "all byte strings", "why_tests_cant": "All malformed files, headers and packet streams.", "anchors": ["src/codecs/tga/decoder.rs: TgaDecoder::new, read_image", "src/codecs/tga/header.rs: Header::from_reader"]}
{"id": "C57", "title": "The TGA screen origin bit only reverses the rows", "statement": "Two TGA files that differ only in the screen-origin bit of the descriptor decode to the same dimensions and colour type, and to the same pixels with the order of the rows reversed.", "quantifier": "all TGA files that decode", "why_tests_cant": "All sizes (odd and even heights), colour types and encodings.", "anchors": ["src/codecs/tga/decoder.rs: flip_vertically, is_flipped_vertically"]}
{"id": "C58", "title": "Compositing onto an opaque pixel keeps it opaque", "statement": "Blending any pixel onto a fully opaque RGBA pixel yields a fully opaque pixel.", "quantifier": "all bottom pixels with alpha MAX, all top pixels, 8- and 16-bit samples", "why_tests_cant": "the defect depends on float rounding of particular alpha values; ranges over all pixel pairs", "anchors": ["src/color.rs: Blend for Rgba"]}
{"id": "C59", "title": "PNM encoder enforces the chosen header's maximal sample value", "statement": "When a PNM header with a maximal sample value is chosen by the caller, encoding succeeds only if no sample exceeds that value, and images within the range are not refused for their sample values.", "quantifier": "all images, all maximal values below the colour type's maximum", "why_tests_cant": "ranges over all sample sequences and all header values", "anchors": ["src/codecs/pnm/encoder.rs: check_sample_values, all_smaller"]}
{"id": "C60", "title": "PNM decoding is total", "statement": "For every byte string, opening and decoding it as PNM returns an error or an image whose buffer has exactly the size that its dimensions and colour type require; it never panics and never loops forever.", "quantifier": "all byte strings", "why_tests_cant": "ranges over all inputs", "anchors": ["src/codecs/pnm/decoder.rs"]}
{"id": "C61", "title": "PNM samples are scaled from the declared maximum to the full range", "statement": "Samples of a binary PGM/PPM file with any declared maximal value m in 1..65535 are decoded so that 0 stays 0, m becomes the type's maximum, order is preserved and every result is within 0.51 of the exact ratio.", "quantifier": "all maximal values, all images, both byte orders", "why_tests_cant": "float rounding over all pairs of maximal value and sample", "anchors": ["src/codecs/pnm/decoder.rs: read_samples"]}
{"id": "C62", "title": "BMP decoding of untrusted bytes never panics", "statement": "Decoding any byte string as BMP (with a file header, without one, or inside an ICO) returns an error or an image whose buffer has exactly width*height*bytes-per-pixel bytes, with width 1..65535 and height at least 1; it never panics, overflows or indexes out of bounds.", "quantifier": "all byte strings", "why_tests_cant": "untrusted input: every byte string", "anchors": ["src/codecs/bmp/decoder.rs: read_metadata, read_image_data"]}
{"id": "C63", "title": "BMP bit-field masks select and scale the right bits", "statement": "A colour mask is accepted exactly when its one bits are contiguous and inside the pixel (a zero mask counts as no field); reading a pixel through it extracts those bits (the top eight of longer fields) and scales n-bit values to 0..255 so that the result is the nearest to the exact ratio.", "quantifier": "all 32-bit masks and all pixel values", "why_tests_cant": "2^32 masks times 2^32 pixels", "anchors": ["src/codecs/bmp/decoder.rs: Bitfield::from_mask, Bitfield::read"]}
{"id": "C64", "title": "BMP palette indices agree with the decoded colours", "statement": "After set_indexed_color(true), reading a paletted BMP yields one byte per pixel, succeeds exactly when normal reading does, and the normal image is the palette lookup of these indices (true for 8 bits per pixel; for fewer bits, and for files without a palette, reading panics).", "quantifier": "all BMP files", "why_tests_cant": "all files and palettes", "anchors": ["src/codecs/bmp/decoder.rs: set_indexed_color, get_palette, read_palettized_pixel_data"]}
{"id": "C65", "title": "HDR images keep their precision", "statement": "A pixel of finite non-negative f32 components is stored as HDR and read back with every component rounded down by less than 1/127 of the largest component, and what was read from an HDR file is not changed by storing it as HDR again (true if the largest component is 0 or between 2^-128 and 2^127; false outside: large numbers become black, tiny ones huge, infinity panics).", "quantifier": "all f32 pixels, all images", "why_tests_cant": "2^96 pixels; rounding of log2, powi and division at every magnitude", "anchors": ["src/codecs/hdr/encoder.rs: to_rgbe8", "src/codecs/hdr/decoder.rs: Rgbe8Pixel::to_hdr"]}
{"id": "C66", "title": "HDR decoding of untrusted bytes never panics", "statement": "Opening and decoding any byte string as Radiance HDR, strict or not, gives an error or an image of width*height pixels, never a panic (false: a pixel followed by eight zero-length run markers overflows the run multiplier; true if no three zero-length markers follow each other).", "quantifier": "all byte strings", "why_tests_cant": "untrusted input: every byte string", "anchors": ["src/codecs/hdr/decoder.rs"]}
{"id": "C67", "title": "An image made from a decoder is exactly what the decoder delivered", "statement": "DynamicImage::from_decoder yields an image with the decoder's dimensions and colour type whose samples are, in order, the native-endian values in the buffer that the decoder filled; the buffer has exactly width*height*bytes_per_pixel bytes; an image too large for a buffer is refused with an error before anything is allocated; decoder errors are passed on. The bytes handed to an encoder, read back by a decoder, give the same image.", "quantifier": "all decoders (dimensions, colour types, delivered bytes), both byte orders", "why_tests_cant": "The decoder is an arbitrary implementation of a trait; sizes up to 2^64.", "anchors": ["src/dynimage.rs: decoder_to_image, DynamicImage::from_decoder, as_bytes, inner_bytes", "src/image.rs: decoder_to_vec"]}
{"id": "C68", "title": "JPEG quality is monotone", "statement": "A higher quality never has a larger entry in either quantisation table; entries are always between 1 and 255; quality 50 gives the tables of the standard, 100 and more give ones, 0 is the same as 1.", "quantifier": "all pairs of qualities", "why_tests_cant": "relation over all pairs and entries, with clamping and integer division", "anchors": ["src/codecs/jpeg/encoder.rs: new_with_quality"]}
{"id": "C69", "title": "JPEG colour conversion is accurate", "statement": "Every RGB colour is converted to Y, Cb and Cr that differ from the exact JFIF values by at most 0.51; greys are converted exactly (v, 128, 128).", "quantifier": "all 2^24 colours", "why_tests_cant": "2^24 colours against an exact real-valued formula", "anchors": ["src/codecs/jpeg/encoder.rs: rgb_to_ycbcr"]}
{"id": "C70", "title": "JPEG stores a colour profile completely or refuses it", "statement": "The ICC profile set on the encoder is split over APP2 segments with correct signature, sequence numbers and count whose data concatenated are the profile; a profile that needs more than 255 segments is refused with an error.", "quantifier": "all profiles of any length", "why_tests_cant": "Boundary lengths (multiples of 65519, up to 16.7 MB) and all contents", "anchors": ["src/codecs/jpeg/encoder.rs: write_icc_profile_chunks, set_icc_profile"]}
{"id": "C71", "title": "The DDS decoder accepts exactly complete DDS files", "statement": "DdsDecoder decodes a file if and only if it is a complete DXT1/3/5 file (magic, header sizes and flags, four character code or DX10 format, dimensions divisible by four, all blocks present); the dimensions, colour type and pixels are those the file describes; everything else is an error, never a panic.", "quantifier": "all byte strings", "why_tests_cant": "Untrusted input of any length and content.", "anchors": ["src/codecs/dds.rs: DdsDecoder::new, Header::from_reader, DX10Header", "src/codecs/dxt.rs"]}
{"id": "C72", "title": "ICO decoding never panics", "statement": "Decoding any byte string shorter than 2^29 bytes as ICO returns an image with a buffer of exactly the reported size or an error; it never panics (given a PNG decoder that does not).", "quantifier": "all byte strings shorter than 2^29 bytes", "why_tests_cant": "Untrusted input of any content.", "anchors": ["src/codecs/ico/decoder.rs: IcoDecoder::new, read_image", "src/codecs/bmp/decoder.rs: new_with_ico_format, read_image_data"]}
{"id": "C73", "title": "The ICO transparency mask is applied to exactly the right pixels", "statement": "When a BMP image in an ICO file is followed by a mask, the alpha of exactly the pixels whose mask bit is 1 becomes 0 (rows bottom-up, most significant bit first, rows padded to 32 bits), and every other byte of the image is unchanged; without a mask the image is unchanged.", "quantifier": "all files, sizes and masks", "why_tests_cant": "All sizes, paddings and masks.", "anchors": ["src/codecs/ico/decoder.rs: read_image"]}
{"id": "C74", "title": "ICO files written are consistent and read back", "statement": "encode_images writes a directory with one entry per image, in order, giving its size (0 = 256), bits per pixel, and the place where exactly its bytes are found; sizes outside 1..=256 and counts outside 1..=65535 are refused; an RGBA image written by write_image is read back identically (given such a PNG codec).", "quantifier": "all lists of images", "why_tests_cant": "All numbers, sizes and contents of images.", "anchors": ["src/codecs/ico/encoder.rs: encode_images, write_direntry, IcoFrame::with_encoded"]}
{"id": "C75", "title": "The BMP decoder shows exactly what an uncompressed BMP file says", "statement": "For a BMP file without run-length compression (compression 0 or bit fields), decoding succeeds exactly when the headers are well formed (sizes, planes, depth, palette and masks as the format allows) and all pixel rows are present; then the reported width, height and colour type are those in the file and every pixel of the output is the colour the file stores for it: palette entry, 5-5-5, 24/32-bit BGR or scaled bit fields, rows bottom-up or top-down, rows padded to four bytes.", "quantifier": "every file (byte list) whose compression field is 0 or 3, every pixel position", "why_tests_cant": "the space of headers, palettes, masks and pixel data is unbounded; reference files cover a few depths and no malformed header", "anchors": ["src/codecs/bmp/decoder.rs: BmpDecoder::new, read_metadata, read_bitmasks, read_palette, read_image_data, read_16_bit_pixel_data, read_32_bit_pixel_data, read_full_byte_pixel_data, read_palettized_pixel_data, Bitfield::from_mask, Bitfield::read, with_rows"]}
{"id": "C76", "title": "GIF animations are composited as the format says", "statement": "The k-th item of GifDecoder::into_frames is the outcome for the k-th frame of the file: an error if it cannot be read or the limits do not allow it, and otherwise exactly the picture the GIF specification gives after the frames before it (transparent pixels let the canvas through; keep, background and previous disposal), of the size of the screen, with the frame's delay; after the last frame the iterator ends. An unreadable frame does not disturb the later ones. It never panics.", "quantifier": "all sequences of frames (positions, sizes, disposals, pixels, read errors), limits, and numbers of calls", "why_tests_cant": "The picture depends on the whole history of frames; tests show a few animations.", "anchors": ["src/codecs/gif.rs: GifFrameIterator::next, blend_and_dispose_pixel, FrameInfo::new_from_frame"]}
{"id": "C77", "title": "The still image of a GIF file is its first frame", "statement": "GifDecoder::read_image stores the first frame at its position and transparent black around it, whatever the buffer held before; it agrees with the first picture of the animation except for the colour of transparent pixels; it fails only if the frame cannot be read or the limits do not allow the extra buffer, and never panics for a buffer of total_bytes.", "quantifier": "all screens, first frames, limits and contents of the buffer", "why_tests_cant": "Every position and size of the frame against the screen, including frames partly or wholly outside.", "anchors": ["src/codecs/gif.rs: GifDecoder::read_image"]}
{"id": "C78", "title": "GIF animations survive encoding", "statement": "Frames encoded with a fresh GifEncoder are written in order, each with its size, pixels and delay (rounded down to 10 ms, at most 65535 units) and the disposal to the background, with the repetition that was set; sizes over 65535 are refused without writing; decoding the result shows each frame alone. Encoding should never panic (false: after a failed start the next frame panics, and so does an image whose container is longer than its pixels).", "quantifier": "all lists of frames, delays, repetitions, and outcomes of the crate's calls", "why_tests_cant": "All histories of calls, sizes, delays and failures of the writer.", "anchors": ["src/codecs/gif.rs: GifEncoder::new_with_speed, set_repeat, encode_frame, encode_frames, convert_frame, gif_dimensions, encode_gif"]}
{"id": "C79", "title": "APNG animations are composited as the format says", "statement": "PngDecoder::apng().into_frames() yields, for an animated PNG with 8-bit colours within the limits, exactly one RGBA frame per frame of the file, in order: each has the size of the image and shows what the APNG specification prescribes (disposal of the frames before, then replacing or alpha blending), with the frame's delay. The iterator never panics, ends with one error if a frame is missing, unreadable or over the limits, and never yields a frame after an error.", "quantifier": "all sequences of frames with any regions inside the canvas, disposal and blend operations, delays, colour types, limits, missing or unreadable frames, and any number of calls of next()", "why_tests_cant": "the canvas depends on the whole history of frames; disposal operations interact across frames (a frame disposed to the previous canvas after one disposed to the background), and errors can occur at any frame", "anchors": ["src/codecs/png.rs: ApngDecoder::mix_next_frame, ApngDecoder::animatable_color_type, AnimationDecoder::into_frames"]}
{"id": "C80", "title": "PNG keeps every sample, on every machine", "statement": "An image written with PngEncoder::write_image and read with PngDecoder has the same size, colour type, ICC profile and samples, for 8 and 16 bits per sample, whatever the byte order of the machine that writes and of the one that reads, the compression and the filter. Colour types that PNG does not have are refused with an error, a buffer of the wrong length is a (documented) panic, and a file larger than the limits is refused.", "quantifier": "all images of the eight colour types, sizes, samples, byte orders, encoder options, ICC profiles, limits", "why_tests_cant": "tests run on one machine and sample few images; a byte-order mistake on the other kind of machine is invisible to them", "anchors": ["src/codecs/png.rs: PngEncoder::write_image, PngEncoder::encode_inner, PngDecoder::with_limits, PngDecoder::read_image"]}
{"id": "C81", "title": "resize with the nearest filter copies the right pixels; degenerate sizes", "statement": "imageops::resize of an image without pixels returns a blank image of the requested size; resize to the image's own size returns an exact copy for every filter and sample type; resize with FilterType::Nearest fills each output pixel with the unchanged samples of the source pixel whose area contains the output pixel's centre (position exact up to a relative error of 2^-21), taking exactly the middle pixel of each group when shrinking by an integer factor and repeating each pixel k times when enlarging by k.", "quantifier": "all images (any view type, any colour type, 8- and 16-bit samples), all output sizes up to the u32/usize limits", "why_tests_cant": "The sampling position is computed in f32; whether a rounding error selects a wrong or out-of-range pixel depends on the pair of sizes, of which there are 2^64 per axis.", "anchors": ["src/imageops/sample.rs: resize, vertical_sample, horizontal_sample, box_kernel"]}
{"id": "C82", "title": "resize with smoothing filters is resampling and invents no values", "statement": "imageops::resize with the Triangle filter gives every sample within about one half of the exact triangle-weighted mean of the source samples (stretched by the shrink factor). With Triangle and Gaussian it never panics, and no sample of the result leaves the range spanned by the source samples within the filter's reach; an image of one colour keeps that colour.", "quantifier": "for every source image (8- or 16-bit samples, up to 4 channels), every pair of sizes up to 2^17 with a shrink factor that keeps rounding small, every output pixel and channel", "why_tests_cant": "The weights are computed in f32 for each output position from the ratio of the sizes; rounding could push a weight sum, a window bound or a clamped sample over a boundary for some pair of sizes only.", "anchors": ["src/imageops/sample.rs: resize, horizontal_sample, vertical_sample, triangle_kernel, gaussian_kernel"]}
{"id": "C83", "title": "sample_nearest and interpolate_nearest give the pixel at the point", "statement": "interpolate_nearest(img, x, y) gives the pixel nearest to (x, y) when 0 <= x <= width-1 and 0 <= y <= height-1, and None for every other point, infinities and NaN included. sample_nearest(img, u, v) gives the pixel whose square contains (u*width, v*height) (up to float rounding of the position) for u, v in 0..=1 and None otherwise. Neither panics.", "quantifier": "for every image, every pair of f32 coordinates", "why_tests_cant": "The bounds are compared after conversion to f32, so the result depends on the rounding of the dimensions; only particular sizes and coordinates expose it.", "anchors": ["src/imageops/sample.rs: sample_nearest, interpolate_nearest"]}
{"id": "C84", "title": "interpolate_bilinear is bilinear interpolation", "statement": "interpolate_bilinear(img, x, y) inside the picture gives the bilinear interpolation of the four neighbouring pixels rounded to the nearest sample (error below 1/2 + 44*max/2^24), never outside the range of the neighbours, and exactly the pixel at integer coordinates; elsewhere it gives None. sample_bilinear(u, v) does the same at (u*width - 1/2, v*height - 1/2) moved into the picture. The weight-sum debug assertion never fails.", "quantifier": "for every image of 8- or 16-bit samples with sides below 2^24 and all f32 coordinates", "why_tests_cant": "Rounding errors of the weights depend on the coordinates; a test only samples a few of the 2^64 coordinate pairs.", "anchors": ["src/imageops/sample.rs: interpolate_bilinear, sample_bilinear"]}
{"id": "C87", "title": "blur keeps samples within the range of their neighbourhood", "statement": "imageops::blur keeps the size of the image, and each sample of the result lies within the range of the source samples in the square of half side 2*sigma (plus less than a pixel) around it; an image of one colour is unchanged. sigma <= 0 means sigma = 1. It does not panic.", "quantifier": "for every image of 8- or 16-bit samples and every sigma", "why_tests_cant": "The kernel's weights depend on sigma and position through f32 arithmetic; overflow, underflow or cancellation can occur for isolated values of sigma.", "anchors": ["src/imageops/sample.rs: blur, gaussian, horizontal_sample, vertical_sample"]}
{"id": "C86", "title": "filter3x3 is a 3x3 convolution", "statement": "imageops::filter3x3(img, kernel) with a kernel of nine moderate integers gives a picture of the same size in which every pixel that has eight neighbours is the sum of the nine neighbouring samples weighted by the kernel, divided by the sum of the weights (or by one if that is zero), clamped to the sample range and rounded down; the border is black. With fractional weights the same holds up to the rounding of f32: the sample before clamping and rounding down differs from the exact quotient by at most 24/2^24 of the sum of the absolute weights times the largest sample, divided by the sum of the weights; with weights that are not negative it is the weighted mean up to 2^-18 of the largest sample. A picture of one colour keeps it in the interior when the weights do not sum to zero, the identity kernel keeps the interior. It does not panic.", "quantifier": "for every image of 8- or 16-bit samples and all integer kernels whose absolute sum times the largest sample is below 2^24; and, up to the stated error, all finite kernels of up to 2^80 in all whose computed sum is zero or at least 2^-20", "why_tests_cant": "The result depends on f32 accumulation order and truncation; a test covers a few kernels and pictures, not all of them.", "anchors": ["src/imageops/sample.rs: filter3x3"]}
{"id": "C85", "title": "thumbnail averages the source pixels of each span", "statement": "imageops::thumbnail(img, nw, nh) gives an nw x nh picture. When both sides shrink by integer factors every pixel is the mean, rounded to nearest, of exactly the source pixels it replaces, so each source pixel contributes to exactly one target pixel; when shrinking in general it is the rounded mean of a non-empty block of the pixels that meet its span; when enlarging, every sample lies in the range of the source samples next to its span, or one below it. It does not panic.", "quantifier": "for every image of 8- or 16-bit samples with sides up to 2^20 and every target size whose blocks' sums fit in 32 bits", "why_tests_cant": "Span boundaries depend on f32 rounding of positions for every pair of sizes; overflow occurs only for large blocks.", "anchors": ["src/imageops/sample.rs: thumbnail, thumbnail_sample_block, thumbnail_sample_fraction_horizontal, thumbnail_sample_fraction_vertical, thumbnail_sample_fraction_both"]}
{"id": "C88", "title": "fast_blur is three box blurs whose variances add up to sigma squared", "statement": "imageops::fast_blur(img, sigma) returns a picture of the same size that equals three successive box blurs (means of 2r+1 neighbours in the row, then in the column, rounded down, with edge pixels repeated); the three radii differ by at most one, are at most |sigma|+1, and the variances of the boxes add up to sigma^2 within 2/5 of (smallest radius + 1). Hence every sample lies between the samples at most 3 sigma + 3 rows and columns away, pictures of one colour are unchanged, and sigma = 0 changes nothing. It does not panic.", "quantifier": "for every image of 8- or 16-bit samples of any size and every finite sigma of magnitude up to 2^15 with (2 sigma + 3) times the largest sample below 2^24", "why_tests_cant": "The running window is updated in f32 along the whole row, so drift depends on sizes and values; box widths depend on rounding of sqrt for every sigma.", "anchors": ["src/imageops/fast_blur.rs: fast_blur, boxes_for_gauss, horizontal_fast_blur_half, extended_f, channel_idx"]}
{"id": "C89", "title": "unsharpen doubles differences above the threshold", "statement": "imageops::unsharpen(img, sigma, threshold) gives a picture of the same size in which a sample c whose value in blur(img, sigma) is d becomes c if |c - d| <= threshold and otherwise c + (c - d) clamped to the sample range. A threshold no difference can exceed changes nothing; a picture of one colour is unchanged for every threshold. It does not panic.", "quantifier": "for every image view of 8- or 16-bit samples up to 2^17 pixels a side, every f32 sigma from 1/8 to 2047 (with (1+2 sigma) times a side at most 2^19), every i32 threshold", "why_tests_cant": "The arithmetic is in i32 on casts from the sample type; whether it ever overflows or leaves the range depends on all pairs of samples and thresholds.", "anchors": ["src/imageops/sample.rs: unsharpen"]}
{"id": "C90", "title": "AVIF pixels show the colours that the planes stand for", "statement": "For every picture that the AVIF decoder accepts (8, 10 or 12 bits; 4:0:0, 4:2:0, 4:2:2, 4:4:4 or RGB planes; limited or full range; any row padding; odd sizes included), reading the image succeeds and each colour of each pixel is the one ITU-T H.273 gives for the luma sample of that pixel and the chroma sample that covers it, within rounding; alpha is the sample of the alpha plane, or opaque if there is none.", "quantifier": "all pictures (sizes, strides, sample values), all layouts, ranges, depths and matrices, all output buffers, both byte orders, aligned and unaligned planes", "why_tests_cant": "There are 2^24 to 2^36 sample triples for each of dozens of combinations of matrix, range, depth and layout, and the row and column loops differ for odd sizes and strides; tests use a handful of files.", "anchors": ["src/codecs/avif/yuv.rs: yuv400_to_rgbx_impl, yuv420_to_rgbx, yuv422_to_rgbx_impl, yuv444_to_rgbx_impl, gbr_to_rgbx_impl, get_inverse_transform", "src/codecs/avif/decoder.rs: read_image, process_16bit_picture, get_matrix"]}
{"id": "C91", "title": "AVIF decoding never panics on a decoded picture", "statement": "For every picture with complete planes and every alpha picture, whatever its size, depth and contents, reading the image fills the whole buffer or returns an error; unsupported matrices give an Unsupported error and RGB planes that are not 4:4:4 a Decoding error.", "quantifier": "all pictures and alpha pictures, all matrix codes, both byte orders, aligned and unaligned planes", "why_tests_cant": "Panics would come from arithmetic overflow of particular sample values or from row and column counts that do not match, which no finite set of files covers.", "anchors": ["src/codecs/avif/decoder.rs: AvifDecoder::read_image, reshape_plane, transmute_y_plane16, transmute_chroma_plane16", "src/codecs/avif/yuv.rs: qrshr, process_halved_chroma_row, check_yuv_plane_preconditions"]}
{"id": "C92", "title": "10- and 12-bit AVIF samples fill the 16-bit range", "statement": "A sample of a 10-bit or 12-bit picture is delivered as the 16-bit number that stands for the same intensity: black is 0, white and opaque are 65535, and the order of samples is kept.", "quantifier": "all samples of both depths", "why_tests_cant": "A test with one picture shows the values in that picture; that the scale is right at both ends and monotone in between is a statement about all samples.", "anchors": ["src/codecs/avif/decoder.rs: process_16bit_picture"]}
{"id": "C93", "title": "Contrast adjustment is one monotone map per sample", "statement": "contrast and contrast_in_place give every sample of every pixel the value of one function of that sample alone, and keep the image's size; the two agree. The function never reverses the order of two samples, equals the exact stretch of the distance to mid-grey by ((100+c)/100)^2, clamped to the sample range, up to rounding, and contrast 0 leaves samples unchanged.", "quantifier": "all images, all contrast values, all samples of 8- and 16-bit types", "why_tests_cant": "Depends on the contrast, the sample and the rounding of 32-bit float arithmetic together; a test fixes one of each.", "anchors": ["src/imageops/colorops.rs: contrast, contrast_in_place", "src/images/dynimage.rs: DynamicImage::adjust_contrast"]}
{"id": "C94", "title": "Hue rotation applies the hue matrix to every pixel", "statement": "huerotate and huerotate_in_place replace each pixel's red, green and blue by the product with the rotation matrix for the angle, clamped to the channel range and truncated, keep alpha and keep the image's size; greys are kept (up to the truncation) whatever the angle and angle 0 keeps the pixel; a full turn is the identity.", "quantifier": "all images, all angles, all pixel types", "why_tests_cant": "Ranges over every angle and colour and over the rounding of 64-bit arithmetic.", "anchors": ["src/imageops/colorops.rs: huerotate, huerotate_in_place", "src/images/dynimage.rs: DynamicImage::huerotate"]}
{"id": "C95", "title": "Gradients run from the start pixel to the stop pixel", "statement": "vertical_gradient and horizontal_gradient give every pixel of a row (column) the same colour, the first row (column) the start pixel, the last one the stop pixel, and in between every channel moves monotonically along the line between them; every image size is accepted.", "quantifier": "all image sizes, all pairs of 8-bit pixels, all rows and columns", "why_tests_cant": "The ratio is a rounded quotient of row number and height: that it never leaves the interval or turns back is a statement about all heights and rows.", "anchors": ["src/imageops/mod.rs: vertical_gradient, horizontal_gradient", "src/traits.rs: Lerp::lerp"]}
{"id": "C96", "title": "Parallel pixel iterators agree with the sequential ones under every schedule", "statement": "par_pixels and par_enumerate_pixels yield the same items, with the same coordinates and in the same order, as pixels and enumerate_pixels; reducing them with an associative operation gives the sequential fold; par_pixels_mut and par_enumerate_pixels_mut run the closure exactly once on each pixel with its own coordinates, whatever the interleaving of the threads' reads and stores; from_par_fn equals from_fn. Empty images included.", "quantifier": "all images, all pixel sizes, all ways the scheduler may split the work, all interleavings of the threads, all closures", "why_tests_cant": "A test run exercises one splitting and one interleaving out of unboundedly many.", "anchors": ["src/buffer_par.rs: PixelsPar, PixelsMutPar, EnumeratePixelsPar, EnumeratePixelsMutPar, ImageBuffer::par_pixels, par_pixels_mut, par_enumerate_pixels, par_enumerate_pixels_mut, from_par_fn"]}
{"id": "C97", "title": "ImageReader chooses the decoder, keeps the position and enforces the limits", "statement": "with_guessed_format sets the format guess_format finds in the remaining data, or keeps the old one, and leaves the read position where it was, however the underlying reads are cut; decode uses the decoder of the set format, returns Unsupported when no format is set or it has no decoder, refuses an image larger than the memory limit before reading pixels, hands the remaining limits to the decoder, and returns an image of the decoder's size and colour type made of the bytes it read; into_dimensions agrees with decode; load is decode with the default limits; reading_enabled reports exactly the formats that have a decoder.", "quantifier": "all readers and positions, all schedules of short and failing reads, all limits, all codecs, all feature sets", "why_tests_cant": "Short reads, positions and limits combine without bound, and the guarantee must hold for whatever a codec claims about its input.", "anchors": ["src/image_reader/image_reader_type.rs: ImageReader::with_guessed_format, guess_format, decode, into_decoder, into_dimensions, make_decoder, require_format", "src/image_reader/free_functions.rs: load", "src/image.rs: ImageDecoder::set_limits, ImageFormat::reading_enabled"]}
{"id": "C98", "title": "OpenEXR images show the display window", "statement": "The decoded image is the file's display window: a position covered by the data window has the file's pixel, every other one is 0 in all channels, whatever the positions and sizes of the two windows and the order in which blocks arrive; no window position overflows. The first flat layer with R, G and B is read, alpha is included as asked or else when present. Writing RGB or RGBA float images and reading them back gives the same bytes; other colour types are refused with an error.", "quantifier": "all window positions and sizes, all pixel values and block orders, all layer lists, all float images", "why_tests_cant": "Offsets between the windows and block orders are unbounded; a sample file has one of each.", "anchors": ["src/codecs/openexr.rs: OpenExrDecoder::with_alpha_preference, dimensions, color_type, read_image, write_buffer, OpenExrEncoder::write_image"]}
{"id": "C99", "title": "TIFF images keep their size, colour type, samples and orientation", "statement": "A TIFF file is opened exactly when its samples are unsigned integers and its colour is grey, grey with alpha, RGB or RGBA of 8 or 16 bits, or CMYK of 8 bits; opening never panics. The image has the size of the file and the samples the TIFF crate decoded, in the machine's byte order; CMYK becomes RGB, each value from its ink and the black of the same pixel, never above the exact value and at most one below. Limits that the image exceeds are refused, otherwise the crate's two memory limits add up to max_alloc. The orientation tag 1 to 8 is honoured. Writing hands the size and samples to the crate unchanged, other colour types are refused, and what was written is read back.", "quantifier": "all sizes, colour types, sample values, limits and tags, and all outcomes of the TIFF crate", "why_tests_cant": "256^4 CMYK pixels, arbitrary sizes, limits and outcomes of the external crate.", "anchors": ["src/codecs/tiff.rs: TiffDecoder::new, set_limits, orientation, read_image, cmyk_to_rgb, TiffEncoder::encode, u8_slice_as_u16"]}
{"id": "C100", "title": "PCX rows and palettes are placed at the right pixels", "statement": "Reading a PCX image without palette gives the rows below each other; with a palette every index is replaced by its three bytes of the palette; a row that cannot be read is an I/O error. The content of the buffer before does not matter.", "quantifier": "all sizes, rows, palettes, indices in the palette and positions of an unreadable row", "why_tests_cant": "The offset arithmetic must be right for every size, and the palette lookup for every index and palette.", "anchors": ["src/codecs/pcx.rs: PCXDecoder::read_image"]}
{"id": "C101", "title": "WebP animations yield every frame once, in order", "statement": "Iterating over the frames of an animated WebP yields, for the k-th frame of the file, an image of the canvas size with the pixels of that frame (opaque when the file has no alpha) and its duration, or the error of reading it; after the last frame the iterator yields nothing, however often it is called. The still image has the announced colour type's length and the decoded bytes.", "quantifier": "all animations, numbers of calls, frame durations, and frames that cannot be read", "why_tests_cant": "Any number of calls before and after the end, and failures at any frame.", "anchors": ["src/codecs/webp/decoder.rs: WebPDecoder::read_image, color_type, into_frames, FramesInner::next"]}
{"id": "C102", "title": "Orientation of JPEG and WebP does not depend on what was asked before", "statement": "For any sequence of calls of orientation and exif_metadata on a JPEG or WebP decoder, exif_metadata returns the EXIF data of the file and orientation the orientation in it, or no transformation when there is none.", "quantifier": "all sequences of calls, all EXIF data", "why_tests_cant": "The orientation is cached by both calls; every history of calls must give the same answers.", "anchors": ["src/codecs/jpeg/decoder.rs: exif_metadata, orientation", "src/codecs/webp/decoder.rs: exif_metadata, orientation"]}
{"id": "C103", "title": "The JPEG decoder announces what it decodes and passes the limits on", "statement": "A JPEG file that can be opened has the size of its headers and the colour type L8, La8, Rgba8 or (every other colour space, CMYK and YCCK too) Rgb8, which is the one read_image then asks the decoder for; limits that the image exceeds are refused, the others are given to the decoder; a buffer of another length is an error, not a panic.", "quantifier": "all headers, colour spaces, limits, buffer lengths and outcomes of the JPEG crate", "why_tests_cant": "The announced colour type and the requested one must agree for every colour space; the limits and lengths are unbounded.", "anchors": ["src/codecs/jpeg/decoder.rs: JpegDecoder::new, color_type, read_image, set_limits, to_supported_color_space, new_zune_decoder"]}
{"id": "C104", "title": "QOI, WebP and AVIF encoders hand the crate the right image", "statement": "QOI takes RGB and RGBA, WebP all 8-bit colour types, as they are; AVIF takes 8-bit RGB and RGBA as they are and turns grey and 16-bit images into RGBA with the nearest 8-bit values and opaque alpha; other colour types are refused with an error; a buffer of the wrong length panics as documented; AVIF speed and quality are limited to the accepted range. An image without pixels is an error of the AVIF encoder.", "quantifier": "all sizes, colour types and sample values, all outcomes of the crates", "why_tests_cant": "All 16-bit samples and image sizes; the crates' outcomes are arbitrary.", "anchors": ["src/codecs/qoi.rs: QoiEncoder::write_image", "src/codecs/webp/encoder.rs: WebPEncoder::encode", "src/codecs/avif/encoder.rs: AvifEncoder::write_image, encode_as_img, new_with_speed_quality"]}
{"id": "C105", "title": "A decoder in a box answers like the decoder", "statement": "Every method of an ImageDecoder called on Box<decoder> (or a box in a box), as ImageReader::into_decoder returns it, gives the result the decoder itself gives, for every sequence of calls; in particular orientation() of the box is the orientation of the file. (False for TIFF: the box does not forward orientation, so every TIFF has no transformation.)", "quantifier": "all decoders, decoder states and sequences of method calls", "why_tests_cant": "Histories of calls on arbitrary stateful decoders.", "anchors": ["src/image.rs: impl ImageDecoder for Box<T>, ImageDecoder::orientation", "src/codecs/tiff.rs: TiffDecoder::orientation", "src/io/image_reader_type.rs: ImageReader::into_decoder"]}
{"id": "C106", "title": "A saved file holds what the encoder of its extension makes of the image", "statement": "save and save_with_format write exactly the encoder's output for the image's own samples, size and colour type to the given path and touch no other file; the format is that of the extension, an unknown extension or a format without encoder is an error (an unknown extension creates no file); write_to and write_with_encoder give the encoder the same arguments (false for GIF: save refuses every image that is not 8-bit RGB or RGBA, write_to converts it); with a format whose decoder inverts its encoder, open returns the saved image and image_dimensions its size.", "quantifier": "all images, paths, formats, encoders (as arbitrary programs of writes, seeks and flushes), and all ways the device splits the writes", "why_tests_cant": "All interleavings of buffered and short writes, all encoders.", "anchors": ["src/image_reader/free_functions.rs: save_buffer_impl, save_buffer_with_format_impl, write_buffer_impl", "src/dynimage.rs: DynamicImage::{save, save_with_format, write_to, write_with_encoder}, open, image_dimensions, load_from_memory", "src/buffer.rs: ImageBuffer::{save, save_with_format, write_to, write_with_encoder}", "src/codecs/gif.rs: GifEncoder::encode"]}
{"id": "C107", "title": "A successful save is complete, a failed one harmless", "statement": "When save returns Ok the file holds the whole output of the encoder, whatever write to the device failed. (False: the last 8192 bytes at most may be missing, since they are written when the buffer is dropped and that error is ignored; true for encoders that flush at the end.) When save fails the previous contents of the file are kept. (False: the file is emptied before the encoder looks at the image; true only when the extension is unknown or the file cannot be created.)", "quantifier": "all images, encoders, and failures of any of the writes", "why_tests_cant": "Every write may be the one that fails.", "anchors": ["src/image_reader/free_functions.rs: save_buffer_with_format_impl", "src/dynimage.rs: DynamicImage::save, save_with_format"]}
{"id": "C108", "title": "DynamicImage operations keep the colour type and give the documented size", "statement": "resize_exact, thumbnail_exact, blur, fast_blur, unsharpen, filter3x3, adjust_contrast, brighten and huerotate on a DynamicImage return an image of the same colour type holding exactly what the imageops function gives for its buffer; the size is the one asked for (resize_exact, thumbnail_exact) or unchanged. resize and thumbnail keep the aspect ratio up to rounding, fit the bound and touch it; resize returns an image that already has the size unchanged. resize_to_fill returns exactly the size asked for, cut from the middle of the image scaled to cover it. With the Nearest filter every pixel of the result is a pixel of the image.", "quantifier": "every DynamicImage of every colour type and size, every operation, every requested size, filter and argument", "why_tests_cant": "the sizes go through floating point rounding and saturation for all pairs of 32-bit sizes, and there are ten variants times nine operations", "anchors": ["src/dynimage.rs: DynamicImage::{resize,resize_exact,thumbnail,thumbnail_exact,resize_to_fill,blur,fast_blur,unsharpen,filter3x3,adjust_contrast,brighten,huerotate}", "src/math/utils.rs: resize_dimensions"]}
{"id": "C109", "title": "DynamicImage::grayscale keeps depth and alpha and stores the luminance", "statement": "grayscale of an integer image returns a grey image of the same bit depth and size, with an alpha channel exactly if the image had one; every pixel holds the luminance of the original pixel (a grey pixel is unchanged) and its unchanged alpha.", "quantifier": "every integer DynamicImage of every colour type and size", "why_tests_cant": "every pixel value of every image must be mapped correctly in each of the variants", "anchors": ["src/dynimage.rs: DynamicImage::grayscale", "src/imageops/colorops.rs: grayscale, grayscale_alpha"]}
{"id": "C110", "title": "Buffer iterators are exact under every sequence of calls from both ends", "statement": "A program that uses pixels, pixels_mut, rows or rows_mut may take items from the front and from the back in any order, ask for the length at any time, keep row iterators and pixel references and read and write through them interleaved: every pixel is handed out at most once, in row-major order from the front and reverse order from the back, len is the exact number of items left, an iterator that ended stays ended, reads return the last value written to that pixel, and the final buffer is the original one with exactly those writes. enumerate_pixels(_mut) and enumerate_rows(_mut) in addition report the right coordinates.", "quantifier": "every image buffer (also empty or with an oversized container) and every finite sequence of calls", "why_tests_cant": "the property ranges over all interleavings of calls on all iterators and references; a test fixes one", "anchors": ["src/buffer.rs: Pixels, PixelsMut, Rows, RowsMut, EnumeratePixels(Mut), EnumerateRows(Mut): next, next_back, len", "src/buffer.rs: ImageBuffer::{pixels,pixels_mut,rows,rows_mut,enumerate_pixels,enumerate_pixels_mut,enumerate_rows,enumerate_rows_mut}"]}
{"id": "C111", "title": "Encoders return for every image", "statement": "write_image of the farbfeld, TGA, PNM, BMP, HDR, ICO and JPEG encoders, given any dimensions, any colour type and a buffer of the length that such an image has, returns Ok or Err and never panics: not for empty images, not for unsupported colour types, not for images that are too large for the format, and for every encoder option (compression, header, palette, quality, pixel density, colour profile).", "quantifier": "all dimensions, colour types, buffers of the right length and encoder options", "why_tests_cant": "a panic may hide at one combination of size, colour type and option out of 2^64 sizes", "anchors": ["src/codecs/farbfeld.rs: FarbfeldEncoder::write_image", "src/codecs/tga/encoder.rs: TgaEncoder::encode", "src/codecs/pnm/encoder.rs: PnmEncoder::write_image", "src/codecs/bmp/encoder.rs: BmpEncoder::encode_with_palette", "src/codecs/hdr/encoder.rs: HdrEncoder::write_image", "src/codecs/ico/encoder.rs: IcoEncoder::write_image", "src/codecs/jpeg/encoder.rs: JpegEncoder::encode"]}
{"id": "C112", "title": "The TGA decoder shows what the file says", "statement": "Decoding a TGA file of a supported kind (grey-scale 8 or 8+8 bits, true-colour 24 or 32 bits, colour map with 24 or 32 bit entries; plain or run-length packed) succeeds, and the pixel in column x and row y is the one that the header and the data denote: packets are expanded, indices are looked up in the colour map, blue-green-red is put in order, and rows and columns run in the direction that the descriptor gives. An index without an entry in the colour map is an error, and image types the format does not have are refused.", "quantifier": "all TGA files: every header, image id, colour map, packet sequence and pixel data of any length", "why_tests_cant": "every combination of header fields and packet boundaries must be right for every image size", "anchors": ["src/codecs/tga/decoder.rs: TgaDecoder::new, read_image, expand_color_map, read_encoded_data, reverse_encoding_in_output, flip_vertically, ColorMap::get", "src/codecs/tga/header.rs: Header::from_reader, ImageType"]}
{"id": "C113", "title": "The HDR decoder shows what the scanlines say", "statement": "Decoding the pixel data of a Radiance file succeeds exactly if the data begin with as many scanlines of the width of the image as it has rows, each coded by component (runs and literal samples for red, green, blue and exponent one after the other) or pixel by pixel with repeat markers; the image then has exactly the pixels these scanlines denote, top to bottom, and the colour of a pixel is its mantissa bytes times two to the power of the exponent byte less 136 (black for exponent byte zero), without rounding.", "quantifier": "all files and all image sizes, every segmentation into runs, literals and markers, strict and lenient mode", "why_tests_cant": "every way to cut a scanline into runs, literal stretches and chained repeat markers must give the same pixels", "anchors": ["src/codecs/hdr/decoder.rs: HdrDecoder::read_image_transform, read_scanline, decode_component, decode_old_rle, Rgbe8Pixel::to_hdr"]}
{"id": "C114", "title": "The HDR decoder reads the header as written", "statement": "A Radiance file is opened exactly if it has the signature line (in strict mode), header lines up to an empty line, and a line -Y height +X width, of an image whose byte count fits 64 bits, with the format 32-bit_rle_rgbe wherever a format is given and, in strict mode, well-formed numbers and no surplus. The metadata list every attribute (all lines but comments, split at the first =) in order, and the exposure, pixel aspect ratio and colour correction are the products of all that occur; malformed ones are skipped in lenient mode. The pixel data are what follows the line of the dimensions.", "quantifier": "all files, strict and lenient mode, every result of the text functions of the standard library", "why_tests_cant": "number, order and contents of header lines are unbounded", "anchors": ["src/codecs/hdr/decoder.rs: HdrDecoder::with_strictness, HdrMetadata::update_header_info, parse_space_separated_f32, parse_dimensions_line, split_at_first, read_line_u8"]}
{"id": "C115", "title": "The PNM decoder shows what the file says", "statement": "A P1 to P6 file decodes exactly if its bytes are a header (the magic, then the width, the height and, but for bitmaps, the maximal sample from 1 to 65535, as decimal words separated by white space with comments anywhere from # to the end of the line) followed by a raster: characters 0 and 1, decimal numbers separated by white space, rows of bits padded to bytes, or samples of one or two bytes, big-endian. The image has the stated dimensions and colour, and each sample is the raster sample in its place: bits are 255 for 0 and 0 for 1; other samples are scaled from 0..max to the full range, 0 and max exactly, order preserved, all others within 0.51. What a file says is unambiguous.", "quantifier": "all byte strings, both byte orders of the machine, all dimensions and maximal samples", "why_tests_cant": "files, comments, number spellings and sizes are unbounded", "anchors": ["src/codecs/pnm/decoder.rs: PnmDecoder::new, HeaderReader::read_next_string, read_next_u32, read_samples, read_separated_ascii, SampleType::from_bytes, from_ascii", "src/utils/mod.rs: expand_bits"]}
{"id": "C116", "title": "The PAM decoder shows what the file says", "statement": "A P7 file decodes exactly if it is the magic line, header lines up to ENDHDR (comments, and WIDTH, HEIGHT, DEPTH, MAXVAL each exactly once with a decimal number, TUPLTYPE at most once) that state a depth and a maximal sample (1 to 65535) which the tuple type BLACKANDWHITE, GRAYSCALE or RGB allows, and a raster of big-endian samples of one byte, or two for a maximal sample above 255. The image has the stated dimensions and colour; each sample is the raster sample in its place, scaled from 0..max to the full range: 0 and max exactly, order preserved, all others within 0.51. Files that state no tuple type are read by their depth.", "quantifier": "all byte strings, both byte orders of the machine, any order and spelling of the header lines, all dimensions, depths and maximal samples", "why_tests_cant": "files, header lines and sizes are unbounded", "anchors": ["src/codecs/pnm/decoder.rs: read_arbitrary_header, HeaderReader::read_next_line, DecodableImageHeader for ArbitraryHeader, PnmDecoder::new, read_samples"]}
{"id": "C117", "title": "Reading a rectangle of a BMP file gives that part of the decoded image", "statement": "For every BMP file that decodes and every non-empty rectangle inside the image, with a row pitch of at least a row and a buffer that holds its rows at that pitch, read_rect stores at buf[i*row_pitch + c] exactly byte c of row i of the rectangle of the decoded image and changes no other byte of the buffer, whatever the buffer held before and however often it is called; if the file does not decode, read_rect of such a rectangle is an error and never a panic; an empty rectangle or one not inside the image is rejected.", "quantifier": "all files (run-length encoded or not), rectangles, row pitches, buffers and earlier calls", "why_tests_cant": "The rectangles, pitches, pixel formats and damaged files multiply; a test shows single combinations.", "anchors": ["src/codecs/bmp/decoder.rs: BmpDecoder::read_rect, read_image_data", "src/image.rs: load_rect"]}
{"id": "C118", "title": "The samples of a JPEG file are near those of the image", "statement": "A JPEG file that the encoder writes for a buffer of 8 bit grey samples or colours, decoded with the inverse cosine transform of the standard (before rounding to integers), shows every sample of every pixel with an error of at most a bound that depends only on the quantisation tables, hence on the quality; the bound never grows when the quality grows, and with quality 100 it is below 15 for grey images.", "quantifier": "all buffers of 8 bit grey samples or colours, all widths and heights from 1 to 65535, all encoders that have written nothing, all qualities, all pixels", "why_tests_cant": "the error of a sample comes from the rounding of 64 coefficients and from the integer arithmetic of the transform; no set of images shows the worst case, and a mistake in one coefficient, one block position or at the padded border spoils only some images", "anchors": ["src/codecs/jpeg/encoder.rs: JpegEncoder::encode, encode_gray, encode_rgb, copy_blocks_gray, copy_blocks_ycbcr, rgb_to_ycbcr", "src/codecs/jpeg/transform.rs: fdct"]}
{"id": "C119", "title": "Resizing and blurring f32 pictures stays within the samples of the source", "statement": "Resizing an f32 picture with the triangle or Gaussian filter, or blurring it, succeeds and gives samples that are, up to a stated rounding error, between the smallest and the largest source sample within reach of the filter, as long as the source samples are between 0 and 1. With the triangle filter the result is that of the exact weighted mean up to rounding. Samples above 1, as HDR pictures have them, are preserved as well.", "quantifier": "all f32 pictures with up to 2^17 rows and columns, all target sizes within the stated scale, all pixels", "why_tests_cant": "The weights and the rounding of each sum depend on both sizes and the position; a test shows single sizes and pictures.", "anchors": ["src/imageops/sample.rs: resize, blur, vertical_sample, horizontal_sample", "src/traits.rs: Primitive for f32"]}
{"id": "C120", "title": "Colour adjustments of f32 images", "statement": "On images with f32 samples between 0 and 1: inverting stores the f32 nearest to 1 - v for every colour sample and keeps alpha, and inverting twice restores every sample up to 2^-23; changing the contrast never fails, keeps the order of samples and, for contrasts from -100 to 100, gives the value of the formula up to 2^-19; turning the hue gives the value of the matrix up to 2^-20 and keeps alpha; grayscale gives the luminance up to 2^-23, leaves grey pixels exactly as they are and keeps alpha; brightening by 0 leaves the image as it is.", "quantifier": "all images (any type that implements the image traits) with f32 samples between 0 and 1, all contrasts, angles and values, all pixels", "why_tests_cant": "The rounding errors differ for each of the 2^30 samples; a test shows a few of them.", "anchors": ["src/imageops/colorops.rs: invert, contrast, contrast_in_place, brighten, brighten_in_place, huerotate, huerotate_in_place, grayscale_with_type, grayscale_with_type_alpha", "src/color.rs: Invert, rgb_to_luma", "src/traits.rs: Enlargeable for f32"]}
{"id": "C121", "title": "Blending of f32 pixels", "statement": "Blending RGBA pixels with f32 samples leaves the bottom exactly as it is when the top is fully transparent and replaces it when the top is fully opaque; otherwise, and for grey pixels with alpha, every sample is that of the source-over formula up to 2^-20. overlay composes exactly the covered pixels in this way. An opaque bottom stays opaque.", "quantifier": "all pixels with f32 samples between 0 and 1, all images and offsets", "why_tests_cant": "Four samples of 2^30 values each; the rounding errors and the underflow of faint pixels show on few of them.", "anchors": ["src/color.rs: Blend for Rgba, Blend for LumaA", "src/imageops/mod.rs: overlay"]}
{"id": "C122", "title": "The thumbnail of an f32 picture is made of means of source samples", "statement": "thumbnail of a picture with f32 samples between 0 and 1 has the requested size and does not panic; every sample lies between the least and the greatest source sample that its span of the source meets, and when shrinking it is the mean of a non-empty block of source samples inside that span, up to the rounding of f32.", "quantifier": "all pictures with sides up to 2^20 and samples between 0 and 1, all target sizes whose blocks have at most 2^24 samples", "why_tests_cant": "Sizes and samples are unbounded in number; the test pictures of thumbnail have u8 samples, and the rounding term of the mean is only right for integers.", "anchors": ["src/imageops/sample.rs: thumbnail, thumbnail_sample_block, thumbnail_sample_fraction_horizontal, thumbnail_sample_fraction_vertical, thumbnail_sample_fraction_both", "src/traits.rs: Enlargeable"]}
{"id": "C123", "title": "Unsharp masking of f32 pictures", "statement": "unsharpen of a picture with f32 samples between 0 and 1 does not panic and doubles every difference from the blurred picture that exceeds the threshold, within the range from 0 to 1; other samples stay as they are.", "quantifier": "all pictures with f32 samples between 0 and 1 and sides up to 2^17, all sigma from 1/8 to 2047, all thresholds", "why_tests_cant": "All pictures and samples; the crate has no test of unsharpen with f32 samples, and its source asks what it does for them.", "anchors": ["src/imageops/sample.rs: unsharpen, blur"]}
{"id": "C124", "title": "Fast blur of f32 pictures", "statement": "fast_blur of a picture with f32 samples between 0 and 1 does not panic, keeps the size, and gives three successive box blurs whose variances add up to sigma squared, up to rounding errors of 8(2 sigma + width + height + 3)/2^24; every sample stays between the source samples within 3 sigma + 3, up to the same error.", "quantifier": "all pictures with f32 samples between 0 and 1 and sides up to 2^19, any number of channels, all sigma up to 2^15", "why_tests_cant": "All pictures and sigmas; the running sums accumulate rounding errors along each row, which grow with the size of the picture.", "anchors": ["src/imageops/fast_blur.rs: fast_blur, horizontal_fast_blur_half, boxes_for_gauss, extended_f"]}
{"id": "C125", "title": "3x3 filters on f32 pictures", "statement": "filter3x3 of a picture with f32 samples between 0 and 1 and at least one pixel does not panic and keeps the size; in the interior every sample is the sum of the nine neighbours weighted by the kernel, divided by the sum of the kernel (or one if that is zero), cut to the range from 0 to 1, up to rounding errors; the border is black. With weights that are not negative it is the weighted mean up to 2^-18.", "quantifier": "all pictures with f32 samples between 0 and 1, all kernels of nine finite weights with absolute sum up to 2^80 and computed sum zero or at least 2^-20", "why_tests_cant": "All kernels and pictures; every sum is rounded nine times.", "anchors": ["src/imageops/sample.rs: filter3x3"]}
{"id": "C126", "title": "resize with the Catmull-Rom filter is bicubic interpolation", "statement": "resize with FilterType::CatmullRom on a non-empty image succeeds and gives an image of the requested size in which every sample is the exact Catmull-Rom (bicubic) weighted mean of the input samples of that channel, cut to the range of the sample type and rounded, up to the error of single-precision arithmetic; an 8-bit image of one colour keeps exactly that colour unless it is shrunk very much. For f32 images with samples in 0..=1 the samples are likewise the clipped bicubic mean, and stay in 0..=1.", "quantifier": "every image (any view with lawful accessors) of u8, u16 or f32 samples, every new size, every position and channel, within the stated size limits", "why_tests_cant": "the filter has negative lobes, so the weights are divided by a sum that could come close to zero, and intermediate values leave the sample range; that this is harmless has to hold for every pair of sizes and every phase, not for the sizes in a test", "anchors": ["src/imageops/sample.rs: resize, bc_cubic_spline, catmullrom_kernel, vertical_sample, horizontal_sample"]}
{"id": "C127", "title": "Enlarging with the Lanczos3 filter is Lanczos interpolation", "statement": "resize with FilterType::Lanczos3 to a size that is not smaller in either direction succeeds and gives an image of the requested size in which every sample is the exact Lanczos mean (windowed sinc with three lobes) of the input samples of that channel, cut to the range of the sample type and rounded, up to the error of single-precision arithmetic; an 8-bit image of one colour keeps exactly that colour. For f32 images with samples in 0..=1 the samples are likewise the clipped Lanczos mean.", "quantifier": "every image (any view with lawful accessors) of u8, u16 or f32 samples, every larger size, every position and channel, within the stated size limits, for every libm whose sin is accurate", "why_tests_cant": "the weights oscillate in sign and are divided by their sum, which depends on the phase and on how many pixels the border leaves; that the division is always well conditioned and the kernel accurate has to hold for every pair of sizes and every phase", "anchors": ["src/imageops/sample.rs: resize, sinc, lanczos, lanczos3_kernel, vertical_sample, horizontal_sample"]}
{"id": "C128", "title": "Making a dynamic image, and taking its buffer out again", "statement": "DynamicImage::new(w, h, color) has that colour type and size, all its samples are zero and its bytes are w*h*bytes_per_pixel zeros (it panics exactly when the sample count is not a usize). as_rgb8 and its relatives return the image's own buffer exactly when the image has that colour type, as_mut_* changes that buffer and nothing else; From of a buffer followed by into_* returns the same buffer, into_* of another type is to_*, and to_* of the same type shows the same picture. Grey float buffers become RGB(A) float images with the grey value in each colour. clone_from leaves the source's image. Exactly one of the flat sample views exists and it addresses the image's samples. as_bytes and into_bytes are the bytes of the pixels.", "quantifier": "all colour types, all sizes, all images of every variant including buffers longer than the image, all changes made through the mutable reference", "why_tests_cant": "ten variants times ten functions, all sizes and contents, and containers with slack", "anchors": ["src/dynimage.rs: new, new_luma8 ... new_rgba32f, as_rgb8 ... as_luma_alpha16, as_mut_rgb8 ... as_mut_luma_alpha16, into_rgb8 ... into_luma_alpha16, as_flat_samples_u8, as_flat_samples_u16, as_flat_samples_f32, as_bytes, into_bytes, clone_from, From impls", "src/buffer.rs: From<DynamicImage> impls, clone_from"]}
{"id": "C129", "title": "Sequences of frames: encoding, collecting, and GIF files encoded again", "statement": "GifEncoder::try_encode_frames encodes the frames before the first error exactly as encode_frames does, returns that error and asks for nothing after it; Frames::collect_frames returns all frames in order or the first error. Decoding a GIF file and encoding its frames again gives an animation with the same pictures (a transparent pixel has no colour), the same size and the same delays, as far as the colour quantisation keeps the pictures. The position of a frame survives encoding.", "quantifier": "all sequences of frames and errors, all outcomes of the crate's calls; all GIF files with readable frames of any number, size, position and disposal within the limits", "why_tests_cant": "sequences of any length, any place of an error, any combination of disposals and frame rectangles", "anchors": ["src/codecs/gif.rs: try_encode_frames, encode_frames, convert_frame, GifFrameIterator::next", "src/animation.rs: collect_frames, Frame"]}
{"id": "C130", "title": "The f32 variants of DynamicImage", "statement": "A DynamicImage that holds Rgb32F or Rgba32F samples behaves as documented whatever bit patterns its samples have (NaNs, infinities, negative and huge values included). to_rgb8, to_rgb16, to_rgba8, to_rgba16, to_luma8, to_luma16, to_luma_alpha8 and to_luma_alpha16 never fail and give each sample cut to 0..=1 (NaN counts as 1), scaled and rounded, the luminance for grey targets, and full alpha when there is none. to_rgb32f and to_rgba32f of an integer image give v / MAX to f32 precision, and converting the result back to the type of the image gives the image again exactly (grey images too). Between the two f32 types the bit patterns of the samples are kept. get_pixel gives the pixel with 8 bits; put_pixel followed by get_pixel returns the pixel that was put, with alpha 255 if the image has no alpha, and changes nothing else. invert and grayscale keep type and size and act on each pixel. Every buffer operation (resize, thumbnail, blur, fast_blur, unsharpen, filter3x3, contrast, brighten, huerotate) that returns keeps the colour type and has the documented size.", "quantifier": "every f32 image of every size with any 32-bit patterns as samples (samples between 0 and 1 for invert and grayscale), every integer image for the conversions to f32, every pixel and position, every operation with every argument and filter", "why_tests_cant": "There are 2^32 patterns per sample and no bound on sizes; the exact round trip u16 -> f32 -> u16 through three types and the luminance depends on rounding at every value.", "anchors": ["src/dynimage.rs: to_rgb32f, to_rgba32f, to_rgb8, to_luma16, get_pixel, put_pixel, invert, grayscale", "src/color.rs: FromColor, FromPrimitive, normalize_float, Invert", "src/imageops/sample.rs", "src/imageops/colorops.rs"]}
{"id": "C131", "title": "Sample-level and mutable access through flat buffers and views", "statement": "For every view that as_view, as_view_with_mut_samples or as_view_mut accepted: min_length, image_slice and image_mut_slice never fail, the slice is the beginning of the buffer and contains every sample of the image; get_sample returns the sample at channel*channel_stride + x*width_stride + y*height_stride exactly for coordinates inside the image and None outside, and agrees with FlatSamples::get_sample and the channels of get_pixel; a write through get_mut_sample changes exactly that element of the buffer, so exactly the coordinates that share its position, and in a mutable view only the one coordinate; writing through image_mut_slice changes only the slice; get_pixel_mut gives access to the pixel get_pixel returns, and blend_pixel is get_pixel, blend, put_pixel; try_upgrade succeeds and fails exactly like as_view_mut of the same samples. FlatSamples::get_mut_sample and index_mut, for any layout and buffer at all, reach a sample exactly when get_sample does and otherwise give None respectively panic.", "quantifier": "every layout (extents, strides), every buffer, every coordinate, every update of the borrowed sample, slice or pixel", "why_tests_cant": "Strides, extents and buffer lengths are arbitrary 64-bit numbers; overflow, aliasing and gaps occur only for special combinations.", "anchors": ["src/flat.rs: FlatSamples::get_mut_sample, FlatSamples::index_mut, FlatSamples::image_mut_slice, View::get_sample, View::get_mut_sample, View::min_length, View::image_slice, View::image_mut_slice, View::try_upgrade, ViewMut::get_mut_sample, ViewMut::get_pixel_mut, ViewMut::blend_pixel"]}
{"id": "C132", "title": "Composing onto a DynamicImage: blend_pixel and overlay", "statement": "blend_pixel on a DynamicImage never fails inside the image, keeps type and size, changes at most the pixel at that place and composes the pixel, converted to the type of the image, over it with the source-over formula; on RGBA images of every sample type a fully transparent pixel changes nothing and a fully opaque one does what put_pixel does. imageops::overlay onto a DynamicImage keeps type, size and every pixel the top image does not cover, and composes where it does; a fully transparent top leaves the image as it is.", "quantifier": "all DynamicImage variants, contents, positions and pixels; all top images and signed offsets", "why_tests_cant": "every pixel value at every position of images of any size, every offset of the top image", "anchors": ["src/dynimage.rs: impl GenericImage for DynamicImage (blend_pixel, put_pixel)", "src/imageops/mod.rs: overlay", "src/color.rs: Blend", "src/buffer.rs: blend_pixel"]}
{"id": "C133", "title": "A DynamicImage behind the generic image traits", "statement": "Generic functions that accept any GenericImageView or GenericImage treat a DynamicImage of any of the ten types as its to_rgba8(): get_pixel succeeds exactly inside the image and returns the pixel of to_rgba8(); rotations, flips and crop_imm().to_image() give the rotated, flipped and cropped to_rgba8(). put_pixel, replace, copy_from, overlay and tile never fail where the buffer versions do not, keep colour type and size, show afterwards the pixel as far as the type can hold it (luminance for grey images, full alpha without alpha), compose every covered pixel exactly once, and change no sample of any other pixel. Copying between images of the same type is lossless.", "quantifier": "all DynamicImages of all ten types with any contents (any bit patterns for f32), all other images, rectangles and signed offsets", "why_tests_cant": "every combination of type, content, size, rectangle and offset", "anchors": ["src/dynimage.rs: impl GenericImageView for DynamicImage, impl GenericImage for DynamicImage", "src/image.rs: copy_from, copy_within", "src/imageops/mod.rs: overlay, replace, tile, crop_imm", "src/imageops/affine.rs"]}
{"id": "C134", "title": "Closures on pixels, and pixels from channels", "statement": "Pixel::map and apply call the closure exactly once for each channel, first channel first, and store what it returns in that channel; map_with_alpha and apply_with_alpha call f for each colour channel in order and then g once for the alpha channel if the pixel type has one; map_without_alpha and apply_without_alpha leave the alpha channel as it was; map2 and apply2 call the closure with the two channels of the same number, the receiver's first. A panic of a closure ends the call. from_slice returns the pixel with the samples of the slice if the slice has as many samples as the pixel has channels and panics otherwise; from_channels keeps the first channels of the four it is given, and channels4 returns the channels of the pixel with the largest sample value in the place of those it lacks.", "quantifier": "all pixel types, sample types, pixels and closures (with any captured state, panicking or not)", "why_tests_cant": "The closures are arbitrary stateful functions; a test fixes a few of them.", "anchors": ["src/color.rs: define_colors! map, apply, map_with_alpha, apply_with_alpha, map2, apply2, from_slice, from_channels, channels4", "src/traits.rs: Pixel::map_without_alpha, apply_without_alpha"]}
{"id": "C135", "title": "read_image and the length of the buffer", "statement": "ImageDecoder::read_image panics if the length of the buffer is not total_bytes(), for the decoders of AVIF, BMP, DDS, farbfeld, GIF, HDR, ICO, OpenEXR, PCX, PNG, PNM, TGA, TIFF and WebP in every state. With a buffer of the right length the farbfeld and HDR decoders succeed exactly when the file can be decoded, and overwrite all of the buffer with the decoded samples in native byte order, whatever it held before. (JPEG returns a decoding error instead of the documented panic, and QOI accepts longer buffers.)", "quantifier": "all decoders of these formats, all files, all buffers", "why_tests_cant": "The documented panic must occur for every wrong length and every picture; tests only ever pass buffers of the right length.", "anchors": ["src/image.rs: ImageDecoder::read_image, total_bytes", "src/codecs/*: read_image"]}
{"id": "C136", "title": "The QOI decoder and the QOI round trip", "statement": "QoiDecoder reports the width, the height and the kind of pixels (RGB or RGBA) of the header, read_image hands out exactly what the crate decodes, every error of the crate is a decoding error and the wrapper never panics. If the crate decodes what it encodes, then a picture written by QoiEncoder opens with the same size and colour type and reads back byte for byte.", "quantifier": "all streams, all behaviours of the crate, all RGB and RGBA pictures", "why_tests_cant": "The crate and the stream are arbitrary; the round trip ranges over all pictures.", "anchors": ["src/codecs/qoi.rs: QoiDecoder::new, dimensions, color_type, read_image; QoiEncoder::write_image"]}
{"id": "C137", "title": "The bounds of views and sub-images", "statement": "get_pixel and put_pixel of an image buffer panic for every coordinate outside the image. A view reads, at any coordinates, the pixel of the image behind it at the translated coordinates, and panics exactly when those lie outside that image (so a view that reaches the right and bottom edge panics as documented, and any other view does not: it gives access to pixels beyond its bounds). Any sequence of put_pixel calls at coordinates inside a mutable sub-image succeeds, leaves all pixels of the image outside the rectangle as they were and each pixel inside with the last value written to it. change_bounds checks nothing; to_image afterwards succeeds with the pixels of the rectangle if it is empty or fits the image, and panics otherwise.", "quantifier": "all images behind the generic traits, all rectangles and coordinates, all sequences of writes", "why_tests_cant": "The claim is about every rectangle, coordinate and history of writes; tests look at coordinates inside the view.", "anchors": ["src/image.rs: GenericImageView::get_pixel, view; GenericImage::put_pixel, sub_image; SubImage::change_bounds, to_image"]}
{"id": "C138", "title": "write_image and the length of the buffer", "statement": "ImageEncoder::write_image panics if the buffer does not hold exactly the bytes of a picture of the given size and colour type (rows of whole bytes), for the encoders of AVIF, BMP, farbfeld, ICO, JPEG, OpenEXR, PNG, PNM, QOI, TGA, TIFF and WebP with any settings, for every size and every colour type they accept. The HDR encoder panics if the buffer is too short. (It accepts buffers that are too long, and may then write more pixels than the picture has.)", "quantifier": "all encoders and their settings, all sizes, colour types and buffers", "why_tests_cant": "The documented panic must occur for every wrong length, size and colour type; tests try a few.", "anchors": ["src/image.rs: ImageEncoder::write_image", "src/codecs/*: write_image", "src/color.rs: ExtendedColorType::buffer_size"]}
{"id": "C139", "title": "Equality and hashes of images", "statement": "Two ImageBuffers made by the crate (whose containers hold exactly the picture) are == exactly if they have the same dimensions and equal samples at every coordinate; == is reflexive, symmetric and transitive for integer samples, and equal images have equal hashes. For containers with extra samples == implies that the pictures agree, but not conversely. Images with f32 samples are equal to themselves exactly if no sample is NaN. DynamicImages are equal exactly if they have the same colour type and equal buffers.", "quantifier": "all pixel types, dimensions, containers and samples", "why_tests_cant": "An equivalence over all pairs (and triples) of images, with all containers; tests compare a few.", "anchors": ["src/buffer.rs: ImageBuffer (PartialEq, Eq, Hash)", "src/dynimage.rs: DynamicImage (PartialEq)"]}
