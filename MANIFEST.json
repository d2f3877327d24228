{
 "claims": [
  {
   "property": "C01",
   "status": "proved",
   "theorems": [
    "Verif.C01_from_raw_iff",
    "Verif.C01_from_raw_inv",
    "Verif.C01_from_raw_get_pixel",
    "Verif.C01_get_pixel_out_of_bounds"
   ],
   "note": ""
  },
  {
   "property": "C02",
   "status": "proved",
   "theorems": [
    "Verif.C02_put_get",
    "Verif.C02_put_out_of_bounds",
    "Verif.C02_put_keeps_slack",
    "Verif.C02_put_history"
   ],
   "note": ""
  },
  {
   "property": "C03",
   "status": "partial",
   "theorems": [
    "Verif.C03_get_pixel_checked_false",
    "Verif.C03_get_pixel_checked_exact",
    "Verif.C03_get_pixel_checked_partial",
    "Verif.C03_in_bounds_partial"
   ],
   "note": "The full claim is false of the unchanged code: for a zero-width/height image with extra data get_pixel_checked behaves differently (C03_get_pixel_checked_false); exact characterisation and the positive part proved."
  },
  {
   "property": "C04",
   "status": "partial",
   "theorems": [
    "Verif.C04_pixels",
    "Verif.C04_enumerate_pixels",
    "Verif.C04_rows",
    "Verif.C04_rows_zero_width",
    "Verif.C04_enumerate_rows_partial",
    "Verif.C04_enumerate_rows_overflow"
   ],
   "note": "pixels, enumerate_pixels, rows proved for all buffers; enumerate_rows proved as far as it holds; it overflows u32 counters in the corner described by C04_enumerate_rows_overflow."
  },
  {
   "property": "C05",
   "status": "partial",
   "theorems": [
    "Verif.C05_pixels_partial",
    "Verif.C05_pixels_false"
   ],
   "note": "False for zero-width views (C05_pixels_false); proved for positive width."
  },
  {
   "property": "C06",
   "status": "proved",
   "theorems": [
    "Verif.C06_new",
    "Verif.C06_new_overflow",
    "Verif.C06_from_pixel",
    "Verif.C06_from_fn"
   ],
   "note": ""
  },
  {
   "property": "C07",
   "status": "partial",
   "theorems": [
    "Verif.C07_copy_from_partial",
    "Verif.C07_copy_from_no_panic_partial",
    "Verif.C07_copy_from_false"
   ],
   "note": "x + width may overflow u32 (C07_copy_from_false); proved when it does not."
  },
  {
   "property": "C08",
   "status": "partial",
   "theorems": [
    "Verif.C08_copy_within_generic",
    "Verif.C08_copy_within_generic_corner",
    "Verif.C08_copy_within_buffer_partial",
    "Verif.C08_copy_within_buffer_false",
    "Verif.C08_implementations_agree_partial"
   ],
   "note": "Generic copy_within fully proved; the ImageBuffer specialisation can panic in a corner (C08_copy_within_buffer_false) and is proved outside it."
  },
  {
   "property": "C09",
   "status": "proved",
   "theorems": [
    "Verif.C09_view",
    "Verif.C09_view_compose",
    "Verif.C09_sub_image_put",
    "Verif.C09_to_image"
   ],
   "note": ""
  },
  {
   "property": "C10",
   "status": "proved",
   "theorems": [
    "Verif.C10_crop"
   ],
   "note": ""
  },
  {
   "property": "C11",
   "status": "proved",
   "theorems": [
    "Verif.C11_overlay_bounds_ext",
    "Verif.C11_overlay_bounds",
    "Verif.C11_bounds_agree"
   ],
   "note": ""
  },
  {
   "property": "C12",
   "status": "proved",
   "theorems": [
    "Verif.C12_replace",
    "Verif.C12_overlay",
    "Verif.C12_tile",
    "Verif.C12_tile_empty_top"
   ],
   "note": ""
  },
  {
   "property": "C13",
   "status": "proved",
   "theorems": [
    "Verif.C13_rotate90_in",
    "Verif.C13_rotate180_in",
    "Verif.C13_rotate270_in",
    "Verif.C13_flip_horizontal_in",
    "Verif.C13_flip_vertical_in",
    "Verif.C13_rotate90",
    "Verif.C13_rotate180",
    "Verif.C13_rotate270",
    "Verif.C13_flip_horizontal",
    "Verif.C13_flip_vertical",
    "Verif.C13_rotate90_twice",
    "Verif.C13_rotate90_then_180",
    "Verif.C13_rotate180_then_90",
    "Verif.C13_rotate90_then_270",
    "Verif.C13_rotate270_then_90",
    "Verif.C13_rotate180_twice",
    "Verif.C13_rotate90_four_times",
    "Verif.C13_flip_horizontal_twice",
    "Verif.C13_flip_vertical_twice",
    "Verif.C13_flip_v_then_h",
    "Verif.C13_flip_h_then_v",
    "Verif.C13_flip_conjugates_rotation"
   ],
   "note": ""
  },
  {
   "property": "C14",
   "status": "proved",
   "theorems": [
    "Verif.C14_flip_horizontal_in_place_spec",
    "Verif.C14_flip_vertical_in_place_spec",
    "Verif.C14_rotate180_in_place_spec",
    "Verif.C14_flip_horizontal_in_place",
    "Verif.C14_flip_vertical_in_place",
    "Verif.C14_rotate180_in_place"
   ],
   "note": ""
  },
  {
   "property": "C15",
   "status": "proved",
   "theorems": [
    "Verif.Orientation.C15_from_to",
    "Verif.Orientation.C15_from_iff",
    "Verif.Orientation.C15_from_range",
    "Verif.Orientation.C15_chunk"
   ],
   "note": ""
  },
  {
   "property": "C16",
   "status": "proved",
   "theorems": [
    "Verif.C16_apply_orientation"
   ],
   "note": ""
  },
  {
   "property": "C17",
   "status": "proved",
   "theorems": [
    "Verif.C17_invert",
    "Verif.C17_invert_twice"
   ],
   "note": ""
  },
  {
   "property": "C18",
   "status": "proved",
   "theorems": [
    "Verif.C18_up",
    "Verif.C18_down",
    "Verif.C18_round_trip",
    "Verif.C18_monotone",
    "Verif.C18_endpoints"
   ],
   "note": ""
  },
  {
   "property": "C19",
   "status": "proved",
   "theorems": [
    "Verif.C19_luma",
    "Verif.C19_monotone",
    "Verif.C19_grey",
    "Verif.C19_grey_round_trip"
   ],
   "note": ""
  },
  {
   "property": "C20",
   "status": "proved",
   "theorems": [
    "Verif.C20_from_color",
    "Verif.C20_round_trip",
    "Verif.C20_convert_buffer"
   ],
   "note": ""
  },
  {
   "property": "C21",
   "status": "proved",
   "theorems": [
    "Verif.C21_tables",
    "Verif.C21_extended",
    "Verif.C21_buffer_size"
   ],
   "note": ""
  },
  {
   "property": "C22",
   "status": "proved",
   "theorems": [
    "Verif.C22_min_length",
    "Verif.C22_fits",
    "Verif.C22_min_length_least",
    "Verif.C22_none_iff"
   ],
   "note": ""
  },
  {
   "property": "C23",
   "status": "partial",
   "theorems": [
    "Verif.C23_total",
    "Verif.C23_unaliased_partial",
    "Verif.C23_zero_stride_false"
   ],
   "note": "Proved for layouts without a dimension of stride 0 and extent >= 2; with such a dimension the library reports the layout as unaliased although samples coincide (C23_zero_stride_false), so the full claim is false of the code."
  },
  {
   "property": "C24",
   "status": "partial",
   "theorems": [
    "Verif.C24_total",
    "Verif.C24_downward",
    "Verif.C24_unaliased_iff",
    "Verif.C24_row_major_layout",
    "Verif.C24_row_major_pos",
    "Verif.C24_row_major_partial",
    "Verif.C24_column_major_partial",
    "Verif.C24_column_major_layout",
    "Verif.C24_column_major_pos",
    "Verif.C24_packed_false"
   ],
   "note": "Exact condition proved; the documented promise fails for empty images (C24_packed_false)."
  },
  {
   "property": "C25",
   "status": "proved",
   "theorems": [
    "Verif.C25_as_view",
    "Verif.C25_get_pixel",
    "Verif.C25_get_pixel_outside",
    "Verif.C25_shrink_to",
    "Verif.C25_as_view_mut",
    "Verif.C25_put_pixel",
    "Verif.C25_put_pixel_outside",
    "Verif.C25_put_get",
    "Verif.C25_zero_stride_false",
    "Verif.C25_with_monocolor"
   ],
   "note": "Reads and writes stay inside the buffer and touch exactly the addressed pixel's samples, for every layout accepted. Independence of other pixels needs a layout without zero strides (see C23; C25_zero_stride_false)."
  },
  {
   "property": "C26",
   "status": "partial",
   "theorems": [
    "Verif.C26_try_into_buffer",
    "Verif.C26_round_trip_partial",
    "Verif.C26_round_trip_false",
    "Verif.C26_get_sample",
    "Verif.C26_get_sample_flat"
   ],
   "note": "Round trip proved exactly for non-empty rows; empty images are refused by try_into_buffer (C26_round_trip_false). Totality of try_into_buffer and get_sample agreement proved in full."
  },
  {
   "property": "C27",
   "status": "proved",
   "theorems": [
    "Verif.DynamicImage.C27_decoder_to_vec",
    "Verif.C27_reserve",
    "Verif.C27_free",
    "Verif.C27_check_dimensions",
    "Verif.C27_reserve_buffer",
    "Verif.C27_accounting",
    "Verif.C27_no_limits",
    "Verif.C27_refused_unchanged"
   ],
   "note": ""
  },
  {
   "property": "C28",
   "status": "partial",
   "theorems": [
    "Verif.C28_disjoint_partial",
    "Verif.C28_disjoint_false",
    "Verif.C28_guess",
    "Verif.C28_unknown",
    "Verif.C28_prefix_stable",
    "Verif.C28_first_bytes"
   ],
   "note": "Everything proved except disjointness of ICO and AVIF, which is false: an AVIF file whose ftyp box is 256 bytes long carries the ICO signature and is guessed as ICO (C28_disjoint_false)."
  },
  {
   "property": "C29",
   "status": "proved",
   "theorems": [
    "Verif.C29_extensions",
    "Verif.C29_extensions_distinct",
    "Verif.C29_case_insensitive",
    "Verif.C29_mime",
    "Verif.C29_capabilities",
    "Verif.C29_all"
   ],
   "note": ""
  },
  {
   "property": "C30",
   "status": "partial",
   "theorems": [
    "Verif.C30_closest_partial",
    "Verif.C30_overflow_false",
    "Verif.C30_saturates",
    "Verif.C30_exact",
    "Verif.C30_exact_below",
    "Verif.C30_exact_false"
   ],
   "note": "Closest fraction among admissible denominators proved for all durations except >= u32::MAX ms with > 0.5 ms left over, which overflow (C30_overflow_false). 'Exact whenever representable' is false (C30_exact_false); exactness proved for admissible denominators and for all durations below 4.294 s."
  },
  {
   "property": "C31",
   "status": "proved",
   "theorems": [
    "Verif.C31_to_duration",
    "Verif.C31_round_trip",
    "Verif.C31_cmp",
    "Verif.C31_numer_denom"
   ],
   "note": ""
  },
  {
   "property": "C32",
   "status": "proved",
   "theorems": [
    "Verif.C32_decode_iff",
    "Verif.C32_round_trip",
    "Verif.C32_truncated",
    "Verif.C32_read_rect",
    "Verif.C32_new_at_start"
   ],
   "note": ""
  },
  {
   "property": "C33",
   "status": "partial",
   "theorems": [
    "Verif.C33_load_rect_partial",
    "Verif.C33_load_rect_rejects",
    "Verif.C33_rows_dropped_false",
    "Verif.C33_total_bytes"
   ],
   "note": "Proved for every scanline decoder and every buffer that holds height rows at the given pitch; with a pitch larger than a row and a smaller buffer rows are silently left out (C33_rows_dropped_false)."
  },
  {
   "property": "C34",
   "status": "proved",
   "theorems": [
    "Verif.C34_new",
    "Verif.C34_read",
    "Verif.C34_read_many"
   ],
   "note": ""
  },
  {
   "property": "C35",
   "status": "proved",
   "theorems": [
    "Verif.C35_expand_bits",
    "Verif.C35_scaling_full_range",
    "Verif.C35_zero_row_panics",
    "Verif.C35_check_dimension_overflow"
   ],
   "note": ""
  },
  {
   "property": "C36",
   "status": "partial",
   "theorems": [
    "Verif.C36_expand_palette_partial",
    "Verif.C36_first_pixel_false"
   ],
   "note": "Every pixel except the one at (0,0) proved; the full claim is false of the code: the pixel at (0,0) is never expanded (C36_first_pixel_false)."
  },
  {
   "property": "C37",
   "status": "proved",
   "theorems": [
    "Verif.Tga.C37_packets",
    "Verif.Tga.C37_roundtrip"
   ],
   "note": ""
  },
  {
   "property": "C38",
   "status": "proved",
   "theorems": [
    "Verif.Tga.C38_header",
    "Verif.Tga.C38_roundtrip",
    "Verif.Tga.C38_too_large"
   ],
   "note": ""
  },
  {
   "property": "C39",
   "status": "partial",
   "theorems": [
    "Verif.Pnm.C39_header",
    "Verif.Pnm.C39_roundtrip_u8_partial",
    "Verif.Pnm.C39_roundtrip_u16_partial",
    "Verif.Pnm.C39_roundtrip_pbm_partial",
    "Verif.Pnm.C39_roundtrip_bw_partial",
    "Verif.Pnm.C39_large_false"
   ],
   "note": "Round trips proved for L8, Rgb8, L16 and bitmaps below 2^32 bytes; larger binary images make the decoder overflow (C60_total_false)."
  },
  {
   "property": "C40",
   "status": "partial",
   "theorems": [
    "Verif.Pnm.C40_any_writer",
    "Verif.Pnm.C40_lines",
    "Verif.Pnm.C40_roundtrip_u8",
    "Verif.Pnm.C40_roundtrip_u16",
    "Verif.Pnm.C40_line_length",
    "Verif.Pnm.C40_bitmap_ascii_false",
    "Verif.Pnm.C40_bitmap_ascii_l8_false"
   ],
   "note": "PGM/PPM ASCII round trips and line breaking proved in full; ASCII bitmaps are decoded inverted (C40_bitmap_ascii_false) or refused (C40_bitmap_ascii_l8_false), so the claim fails for bitmaps."
  },
  {
   "property": "C41",
   "status": "partial",
   "theorems": [
    "Verif.Bmp.C41_rgb8_roundtrip",
    "Verif.Bmp.C41_rgba8_roundtrip",
    "Verif.Bmp.C41_l8_roundtrip",
    "Verif.Bmp.C41_la8_roundtrip",
    "Verif.Bmp.C41_palette_roundtrip",
    "Verif.Bmp.C41_size_false"
   ],
   "note": "Round trip proved for all images with sides 1..65535 whose file size fits 32 bits; C41_size_false: images without pixels or larger sides are encoded but the decoder refuses them."
  },
  {
   "property": "C42",
   "status": "proved",
   "theorems": [
    "Verif.Bmp.C42_rle_canvas",
    "Verif.Bmp.C42_rle_total"
   ],
   "note": ""
  },
  {
   "property": "C43",
   "status": "partial",
   "theorems": [
    "Verif.Hdr.C43_scanline",
    "Verif.Hdr.C43_plain_row",
    "Verif.Hdr.C43_file_roundtrip_partial",
    "Verif.Hdr.C43_plain_file_roundtrip_partial",
    "Verif.Hdr.C43_no_columns",
    "Verif.Hdr.C43_width_32768_false"
   ],
   "note": "Proved for widths 8..32767 for all pixels, for width 0, and for the other widths but 32768 for rows without markers; C43_width_32768_false and C65_narrow_false show the rest fails."
  },
  {
   "property": "C44",
   "status": "partial",
   "theorems": [
    "Verif.Jpeg.C44_gray_partial",
    "Verif.Jpeg.C44_rgb_partial",
    "Verif.Jpeg.C44_too_large",
    "Verif.Jpeg.C44_encode_gray_partial",
    "Verif.Jpeg.C44_encode_rgb_partial",
    "Verif.Jpeg.C44_unsupported",
    "Verif.Jpeg.C44_encode_quality_partial",
    "Verif.Jpeg.C44_empty_false",
    "Verif.Jpeg.C44_again_false",
    "Verif.Jpeg.C44_16bit_false"
   ],
   "note": "Proved for u8 images of 1..65535 pixels a side and a fresh encoder; empty, 16-bit images and a second use of an encoder are false (witnesses). f32 pixels and failing writers are not modelled."
  },
  {
   "property": "C45",
   "status": "proved",
   "theorems": [
    "Verif.Jpeg.C45_codes",
    "Verif.Jpeg.C45_prefix_free"
   ],
   "note": "All tables that T.81 allows."
  },
  {
   "property": "C46",
   "status": "partial",
   "theorems": [
    "Verif.C46_brighten_in_place_partial",
    "Verif.C46_brighten_partial",
    "Verif.C46_brighten_false",
    "Verif.C46_bilevel",
    "Verif.C46_index_colors"
   ],
   "note": "brighten/brighten_in_place proved for u8 and u16 samples when MAX+value fits i32; false beyond (C46_brighten_false: i32 overflow). BiLevel and index_colors fully proved. Copying brighten excludes 0-width images of height >= 2 (C05_pixels_false)."
  },
  {
   "property": "C47",
   "status": "partial",
   "theorems": [
    "Verif.C47_dither_partial",
    "Verif.C47_dither_bilevel_partial",
    "Verif.C47_dither_false"
   ],
   "note": "proved for width >= 2 and height >= 1; false otherwise (C47_dither_false: panics)."
  },
  {
   "property": "C48",
   "status": "proved",
   "theorems": [
    "Verif.Dxt.C48_decode",
    "Verif.Dxt.C48_misaligned",
    "Verif.Dxt.C48_local",
    "Verif.Dxt.C48_short"
   ],
   "note": ""
  },
  {
   "property": "C49",
   "status": "partial",
   "theorems": [
    "Verif.C49_no_alpha",
    "Verif.C49_rgba_extremes",
    "Verif.C49_rgba",
    "Verif.C49_lumaA_partial",
    "Verif.C49_lumaA_transparent_false",
    "Verif.C49_lumaA_opaque_false",
    "Verif.C49_u32_false"
   ],
   "note": "Rgb/Luma replace; Rgba u8/u16 fully proved (extremes, no panic, range, accuracy of exact source-over); LumaA proved except transparent/opaque exactness, which is false (witnesses); Rgba<u32> blending can panic (witness). f32 samples: C121."
  },
  {
   "property": "C50",
   "status": "partial",
   "theorems": [
    "Verif.C50_in_range",
    "Verif.C50_fit",
    "Verif.C50_fill",
    "Verif.C50_fill_saturated",
    "Verif.C50_cover_false",
    "Verif.C50_fill_crop"
   ],
   "note": "At least 1 and in u32 for all arguments; fit, fill and saturated fill fully characterised; covering the box is false when a dimension saturates at u32::MAX (C50_cover_false). 'Equals the rounded exact size' holds up to 2^-18 because the ratio is rounded first."
  },
  {
   "property": "C51",
   "status": "proved",
   "theorems": [
    "Verif.C51_round_trip",
    "Verif.C51_total",
    "Verif.C51_special",
    "Verif.C51_monotone",
    "Verif.C51_nearest",
    "Verif.C51_to_float"
   ],
   "note": "IEEE binary32 model with rounding to nearest even."
  },
  {
   "property": "C52",
   "status": "proved",
   "theorems": [
    "Verif.C52_rotate90",
    "Verif.C52_rotate180",
    "Verif.C52_rotate270",
    "Verif.C52_fliph",
    "Verif.C52_flipv",
    "Verif.C52_rotate180_in_place",
    "Verif.C52_fliph_in_place",
    "Verif.C52_flipv_in_place",
    "Verif.C52_crop",
    "Verif.C52_invert",
    "Verif.C52_to",
    "Verif.C52_into",
    "Verif.C52_get_pixel",
    "Verif.C52_put_pixel"
   ],
   "note": "Crop, flips, rotations proved for all ten variants; invert, to_*, get_pixel, put_pixel proved for the eight integer variants; the arithmetic on float samples is a parameter of the model here (see C51 for float samples)."
  },
  {
   "property": "C53",
   "status": "proved",
   "theorems": [
    "Verif.Ico.C53_best",
    "Verif.Ico.C53_selected"
   ],
   "note": "All directories."
  },
  {
   "property": "C54",
   "status": "partial",
   "theorems": [
    "Verif.Bmp.C54_bmp_prefix",
    "Verif.Bmp.C54_bmp_rows_present",
    "Verif.Bmp.C54_bmp_rgb8",
    "Verif.Bmp.C54_bmp_rgba8",
    "Verif.Bmp.C54_bmp_l8",
    "Verif.Bmp.C54_bmp_palette",
    "Verif.Dds.C54_dds",
    "Verif.Dds.C54_dds_exact",
    "Verif.Hdr.C54_hdr_prefix",
    "Verif.Hdr.C54_hdr_truncated",
    "Verif.Hdr.C54_hdr_plain_truncated",
    "Verif.Ico.C54_ico_prefix",
    "Verif.Pnm.C54_pnm_binary",
    "Verif.Pnm.C54_pnm_ascii_false",
    "Verif.Tga.C54_tga_partial",
    "Verif.Tga.C54_tga_false"
   ],
   "note": "farbfeld, uncompressed TGA, binary PNM, BMP, HDR, DDS and ICO proved; false for RLE TGA (truncated RLE accepted) and ASCII PNM (C54_pnm_ascii_false)."
  },
  {
   "property": "C55",
   "status": "partial",
   "theorems": [
    "Verif.C55_grayscale_partial",
    "Verif.C55_grayscale_false"
   ],
   "note": "proved for all images except width 0 with height >= 2, where the call panics (C55_grayscale_false)."
  },
  {
   "property": "C56",
   "status": "proved",
   "theorems": [
    "Verif.Tga.C56_tga_total"
   ],
   "note": ""
  },
  {
   "property": "C57",
   "status": "proved",
   "theorems": [
    "Verif.Tga.C57_origin"
   ],
   "note": ""
  },
  {
   "property": "C58",
   "status": "partial",
   "theorems": [
    "Verif.C58_opaque_bottom_partial",
    "Verif.C58_opaque_bottom_false"
   ],
   "note": "False: alpha 254 witness; proved: alpha is MAX or MAX-1."
  },
  {
   "property": "C59",
   "status": "partial",
   "theorems": [
    "Verif.Pnm.C59_range_check_false",
    "Verif.Pnm.C59_range_check_partial"
   ],
   "note": "False as stated: the range check is inverted; C59_range_check_false proves for every maximal value below 255, every size and image that encoding succeeds exactly when a sample is out of range. The part with maximal value >= the colour type's maximum is proved."
  },
  {
   "property": "C60",
   "status": "partial",
   "theorems": [
    "Verif.Pnm.C60_total_partial",
    "Verif.Pnm.C60_total_false"
   ],
   "note": "Proved for ASCII files and for binary files that declare less than 2^32 bytes; false beyond (C60_total_false: a 19 byte file makes the decoder's u32 size computation overflow; panic in debug builds)."
  },
  {
   "property": "C61",
   "status": "proved",
   "theorems": [
    "Verif.Pnm.C61_scale_u8",
    "Verif.Pnm.C61_scale_u16"
   ],
   "note": "All maximal values 1..65535, PGM and PPM binary."
  },
  {
   "property": "C62",
   "status": "proved",
   "theorems": [
    "Verif.Bmp.C62_decode_total",
    "Verif.Bmp.C62_other_entry_points"
   ],
   "note": ""
  },
  {
   "property": "C63",
   "status": "proved",
   "theorems": [
    "Verif.Bmp.C63_masks",
    "Verif.Bmp.C63_read"
   ],
   "note": ""
  },
  {
   "property": "C64",
   "status": "partial",
   "theorems": [
    "Verif.Bmp.C64_indexed_partial",
    "Verif.Bmp.C64_indexed_false"
   ],
   "note": "Proved for 8-bit palettes; C64_indexed_false: panics for RGB files and for one bit per pixel."
  },
  {
   "property": "C65",
   "status": "partial",
   "theorems": [
    "Verif.Hdr.C65_precision_partial",
    "Verif.Hdr.C65_black",
    "Verif.Hdr.C65_reencode_partial",
    "Verif.Hdr.C65_file_partial",
    "Verif.Hdr.C65_file_stable_partial",
    "Verif.Hdr.C65_large_false",
    "Verif.Hdr.C65_small_false",
    "Verif.Hdr.C65_infinite_false",
    "Verif.Hdr.C65_narrow_false"
   ],
   "note": "Proved within the range 2^-128 .. 2^127 (and black) for any log2 satisfying LogOk; false outside (C65_large_false, C65_small_false, C65_infinite_false, C65_narrow_false)."
  },
  {
   "property": "C66",
   "status": "partial",
   "theorems": [
    "Verif.Hdr.C66_decode_total_partial",
    "Verif.Hdr.C66_open_total",
    "Verif.Hdr.C66_decode_total_false"
   ],
   "note": "False as it stands (C66_decode_total_false); proved for files without three consecutive zero-length run markers, for any text functions."
  },
  {
   "property": "C67",
   "status": "proved",
   "theorems": [
    "Verif.DynamicImage.C67_of_decoder",
    "Verif.DynamicImage.C67_samples",
    "Verif.DynamicImage.C67_bytes_roundtrip"
   ],
   "note": ""
  },
  {
   "property": "C68",
   "status": "proved",
   "theorems": [
    "Verif.Jpeg.C68_quality"
   ],
   "note": "All qualities."
  },
  {
   "property": "C69",
   "status": "proved",
   "theorems": [
    "Verif.Jpeg.C69_colour"
   ],
   "note": "All colours, against the real-valued JFIF formula."
  },
  {
   "property": "C70",
   "status": "proved",
   "theorems": [
    "Verif.Jpeg.C70_icc_too_large",
    "Verif.Jpeg.C70_icc"
   ],
   "note": "All profiles."
  },
  {
   "property": "C71",
   "status": "proved",
   "theorems": [
    "Verif.Dds.C71_complete",
    "Verif.Dds.C71_incomplete",
    "Verif.Dds.C71_accepted",
    "Verif.Dds.C71_total"
   ],
   "note": ""
  },
  {
   "property": "C72",
   "status": "partial",
   "theorems": [
    "Verif.Ico.C72_decode_total"
   ],
   "note": "Files under 2^29 bytes; for larger ones the u32 index of the mask overflows. PNG decoder is a parameter assumed total."
  },
  {
   "property": "C73",
   "status": "proved",
   "theorems": [
    "Verif.Ico.C73_mask"
   ],
   "note": "All BMP images in ICO files."
  },
  {
   "property": "C74",
   "status": "proved",
   "theorems": [
    "Verif.Ico.C74_layout",
    "Verif.Ico.C74_limits",
    "Verif.Ico.C74_roundtrip"
   ],
   "note": "PNG codec is a parameter; the total size is assumed below 2^32 bytes (above it the code panics: C74_limits)."
  },
  {
   "property": "C75",
   "status": "proved",
   "theorems": [
    "Verif.Bmp.C75_accepts",
    "Verif.Bmp.C75_pixels"
   ],
   "note": "Spec/Bmp.lean states what the file says; RLE files are C41/C62."
  },
  {
   "property": "C76",
   "status": "proved",
   "theorems": [
    "Verif.Gif.C76_frames"
   ],
   "note": "The gif crate (container, LZW, palettes) is abstract: a list of frames or errors."
  },
  {
   "property": "C77",
   "status": "proved",
   "theorems": [
    "Verif.Gif.C77_still",
    "Verif.Gif.C77_first_frame"
   ],
   "note": "As C76; the buffer has the documented size."
  },
  {
   "property": "C78",
   "status": "partial",
   "theorems": [
    "Verif.Gif.C78_dimensions",
    "Verif.Gif.C78_frames",
    "Verif.Gif.C78_roundtrip",
    "Verif.Gif.C78_total_false",
    "Verif.Gif.C78_container_false",
    "Verif.Gif.C78_total_partial"
   ],
   "note": "Total is false (C78_total_false, C78_container_false); quantisation by the crate is an abstract length-preserving function in the round trip."
  },
  {
   "property": "C79",
   "status": "partial",
   "theorems": [
    "Verif.Apng.C79_frames_partial",
    "Verif.Apng.C79_refused",
    "Verif.Apng.C79_limits",
    "Verif.Apng.C79_total",
    "Verif.Apng.C79_frames_false"
   ],
   "note": "The pictures are proved for all animations in which no frame disposed to the background is directly followed by one disposed to the previous canvas; C79_frames_false proves that the code deviates from the specification otherwise (F33). Totality, order, errors and limits are proved without restriction (frames non-empty and inside the canvas, as the png crate checks). The png crate is a list of events."
  },
  {
   "property": "C80",
   "status": "proved",
   "theorems": [
    "Verif.Png.C80_roundtrip",
    "Verif.Png.C80_image",
    "Verif.Png.C80_refused",
    "Verif.Png.C80_limits"
   ],
   "note": "The png crate is a parameter that is assumed to give back the picture it encoded (Faithful)."
  },
  {
   "property": "C81",
   "status": "proved",
   "theorems": [
    "Verif.C81_empty",
    "Verif.C81_same_size",
    "Verif.C81_nearest",
    "Verif.C81_nearest_enlarge"
   ],
   "note": "f32 arithmetic modelled bit-exactly up to the sign of zero; Libm functions abstract (unused by the nearest filter)."
  },
  {
   "property": "C82",
   "status": "proved",
   "theorems": [
    "Verif.C82_within",
    "Verif.C82_between",
    "Verif.C82_constant",
    "Verif.C82_triangle"
   ],
   "note": "Triangle: error bound against the exact tent mean (C82_triangle); Triangle and Gaussian: range kept (C82_within with rounding slack, C82_between exact), constants kept. exp/sqrt/pi of the Gaussian are assumed roughly right (Libm.Ok). CatmullRom (C126) and Lanczos have negative lobes and do not have the range property."
  },
  {
   "property": "C83",
   "status": "partial",
   "theorems": [
    "Verif.C83_interpolate",
    "Verif.C83_interpolate_none",
    "Verif.C83_sample",
    "Verif.C83_sample_none",
    "Verif.C83_outside_false"
   ],
   "note": "Holds for sides up to 2^24; beyond, the f32 rounding of the width admits a point outside and the call panics (C83_outside_false)."
  },
  {
   "property": "C84",
   "status": "proved",
   "theorems": [
    "Verif.C84_interpolate",
    "Verif.C84_between",
    "Verif.C84_grid",
    "Verif.C84_none",
    "Verif.C84_sample",
    "Verif.C84_sample_none"
   ],
   "note": "Sides below 2^24, 8/16-bit samples."
  },
  {
   "property": "C87",
   "status": "partial",
   "theorems": [
    "Verif.C87_within",
    "Verif.C87_between",
    "Verif.C87_constant",
    "Verif.C87_nonpositive",
    "Verif.C87_empty",
    "Verif.C87_total_false",
    "Verif.C87_tiny_false"
   ],
   "note": "For 1/8 <= sigma <= 2047 with moderate sizes; false for NaN (C87_total_false) and for positive sigma whose square underflows (C87_tiny_false): both panic."
  },
  {
   "property": "C86",
   "status": "partial",
   "theorems": [
    "Verif.C86_kernel",
    "Verif.C86_constant",
    "Verif.C86_identity",
    "Verif.C86_empty_false",
    "Verif.C86_nan_false",
    "Verif.C86_weighted",
    "Verif.C86_mean",
    "Verif.C86_zero_sum_false"
   ],
   "note": "Exact for integer kernels within the stated bound (C86_kernel, C86_constant, C86_identity), with an error bound for fractional kernels (C86_weighted, C86_mean). For a picture without rows, or without columns and at least three rows, the call panics (C86_empty_false), as for NaN or infinite weights (C86_nan_false); weights that add up to zero only in exact arithmetic are divided by the rounding error (C86_zero_sum_false). f32 samples: C125."
  },
  {
   "property": "C85",
   "status": "partial",
   "theorems": [
    "Verif.C85_within",
    "Verif.C85_shrink",
    "Verif.C85_mean",
    "Verif.C85_total_false",
    "Verif.C85_wide_false",
    "Verif.C85_once_false",
    "Verif.C85_constant_false"
   ],
   "note": "C85_mean (integer factors, exact), C85_shrink (exact mean of a block), C85_within (any sizes). False in general: 16-bit block sums overflow u32 and panic (C85_total_false), 32-bit white images panic when enlarged (C85_wide_false), a source pixel can contribute to two target pixels (C85_once_false), one-colour images are not kept when enlarged (C85_constant_false). f32 samples: C122."
  },
  {
   "property": "C88",
   "status": "partial",
   "theorems": [
    "Verif.C88_boxes",
    "Verif.C88_within",
    "Verif.C88_constant",
    "Verif.C88_identity",
    "Verif.C88_empty",
    "Verif.C88_nan_false",
    "Verif.C88_infinite_false",
    "Verif.C88_wide_false",
    "Verif.C88_drift_false"
   ],
   "note": "Proved as stated, given that sqrt is accurate (hypothesis SqrtOk, true of IEEE sqrt). Beyond those bounds it fails: NaN sigma panics (C88_nan_false), infinite sigma gives black (C88_infinite_false), a 16-bit picture of one colour drifts for sigma 128.5 (C88_drift_false), white u32 pictures panic (C88_wide_false). f32 samples: C124."
  },
  {
   "property": "C89",
   "status": "partial",
   "theorems": [
    "Verif.C89_formula",
    "Verif.C89_threshold",
    "Verif.C89_constant",
    "Verif.C89_wide_false"
   ],
   "note": "Proved as stated, given the accuracy hypotheses on exp and sqrt of C87. For u32 samples it always panics (C89_wide_false). f32 samples: C123."
  },
  {
   "property": "C90",
   "status": "partial",
   "theorems": [
    "Verif.Avif.C90_pixels_partial",
    "Verif.Avif.C90_matrix_false"
   ],
   "note": "Proved for every well-formed picture with BT.709/unspecified, BT.470BG (=BT.601), BT.2020 NCL, identity 4:4:4, and without chroma for all accepted matrices; C90_matrix_false: BT.470M, SMPTE 170M (mapped to 240M) and SMPTE 240M (K_R and K_B swapped) give wrong colours. AV1 decoding is a parameter."
  },
  {
   "property": "C91",
   "status": "proved",
   "theorems": [
    "Verif.Avif.C91_total",
    "Verif.Avif.C91_refused"
   ],
   "note": "For every picture with planes of the declared sizes; alpha picture arbitrary apart from a positive row length."
  },
  {
   "property": "C92",
   "status": "partial",
   "theorems": [
    "Verif.Avif.C92_scale_partial",
    "Verif.Avif.C92_white_false"
   ],
   "note": "C92_white_false: white and opaque come out as 65472 (10 bit); C92_scale_partial: within one unit of the picture's depth, monotone, black is 0."
  },
  {
   "property": "C93",
   "status": "partial",
   "theorems": [
    "Verif.C93_in_place",
    "Verif.C93_copy",
    "Verif.C93_monotone",
    "Verif.C93_accurate",
    "Verif.C93_accurate_u8",
    "Verif.C93_zero_partial",
    "Verif.C93_flat",
    "Verif.C93_zero_false",
    "Verif.C93_alpha_false",
    "Verif.C93_nan_false",
    "Verif.C93_u32_false"
   ],
   "note": "Every sample is mapped by one monotone function (C93_in_place, C93_copy, C93_monotone), close to the exact stretch (C93_accurate, C93_accurate_u8). False as stated: contrast 0 makes 1..63 one darker (C93_zero_false; C93_zero_partial: by at most one), alpha is stretched too (C93_alpha_false), a NaN contrast panics (C93_nan_false), white u32 panics (C93_u32_false)."
  },
  {
   "property": "C94",
   "status": "partial",
   "theorems": [
    "Verif.C94_in_place",
    "Verif.C94_copy",
    "Verif.C94_accurate",
    "Verif.C94_grey",
    "Verif.C94_zero",
    "Verif.C94_wide_false",
    "Verif.C94_full_turn_false",
    "Verif.C94_luma_false",
    "Verif.C94_luma_alpha_false"
   ],
   "note": "Per-pixel map and accuracy proved for 8-bit RGB and RGBA with any sine/cosine in [-1,1]; false: 16-bit pixels are cut to 255 (C94_wide_false), a full turn changes 10 to 9 (C94_full_turn_false), Luma images change brightness (C94_luma_false) and LumaA images change alpha (C94_luma_alpha_false)."
  },
  {
   "property": "C95",
   "status": "partial",
   "theorems": [
    "Verif.C95_vertical_partial",
    "Verif.C95_horizontal_partial",
    "Verif.C95_ends",
    "Verif.C95_monotone",
    "Verif.C95_accurate",
    "Verif.C95_single_row_false",
    "Verif.C95_single_column_false",
    "Verif.C95_empty"
   ],
   "note": "Proved for at least two rows/columns (the _partial theorems carry that hypothesis); with exactly one row or column the ratio is 0/0 and the function panics (C95_single_row_false, C95_single_column_false)."
  },
  {
   "property": "C96",
   "status": "proved",
   "theorems": [
    "Verif.Par.C96_len",
    "Verif.Par.C96_pixels",
    "Verif.Par.C96_enumerate",
    "Verif.Par.C96_reduce",
    "Verif.Par.C96_running",
    "Verif.Par.C96_for_each",
    "Verif.Par.C96_deterministic",
    "Verif.Par.C96_from_par_fn"
   ],
   "note": "rayon enters as its documented interface: any sequence of in-range split_at calls, pieces run concurrently with stores of single samples interleaved arbitrarily, results combined in order. Closures are pure functions of coordinates and pixel; a panicking closure is not modelled."
  },
  {
   "property": "C97",
   "status": "partial",
   "theorems": [
    "Verif.C97_guess",
    "Verif.C97_no_format",
    "Verif.C97_disabled",
    "Verif.C97_memory_limit",
    "Verif.C97_decode",
    "Verif.C97_dimensions",
    "Verif.C97_load",
    "Verif.C97_enabled_partial",
    "Verif.C97_avif_false",
    "Verif.C97_dds_false"
   ],
   "note": "All parts proved except the last: reading_enabled is true for AVIF with the default features although there is no decoder (C97_avif_false), and false for DDS although there is one (C97_dds_false); C97_enabled_partial covers the other formats. Codecs are parameters with the contract that read_image fills its buffer."
  },
  {
   "property": "C98",
   "status": "proved",
   "theorems": [
    "Verif.Exr.C98_pixels",
    "Verif.Exr.C98_error",
    "Verif.Exr.C98_layer",
    "Verif.Exr.C98_write",
    "Verif.Exr.C98_write_unsupported",
    "Verif.Exr.C98_roundtrip"
   ],
   "note": "The exr crate is a parameter: window bounds it enforces (Bounded), pixels it delivers in any order (Delivers), and for the round trip that it gives back the pixels it was given. The layer whose pixels the crate delivers (first_valid_layer) is taken to be the selected header."
  },
  {
   "property": "C99",
   "status": "proved",
   "theorems": [
    "Verif.Tiff.C99_open",
    "Verif.Tiff.C99_open_total",
    "Verif.Tiff.C99_pixels",
    "Verif.Tiff.C99_refused",
    "Verif.Tiff.C99_cmyk",
    "Verif.Tiff.C99_cmyk_exact_false",
    "Verif.Tiff.C99_limits",
    "Verif.Tiff.C99_orientation",
    "Verif.Tiff.C99_write",
    "Verif.Tiff.C99_write_other",
    "Verif.Tiff.C99_roundtrip"
   ],
   "note": "The tiff crate is a parameter. The CMYK value is proved for all inks and blacks (f32 arithmetic); C99_cmyk_exact_false shows that it is not always the exact value rounded down."
  },
  {
   "property": "C100",
   "status": "proved",
   "theorems": [
    "Verif.Pcx.C100_rgb",
    "Verif.Pcx.C100_palette",
    "Verif.Pcx.C100_error"
   ],
   "note": "The pcx crate is a parameter: rows of the asked length, or an error."
  },
  {
   "property": "C101",
   "status": "proved",
   "theorems": [
    "Verif.Webp.C101_frames",
    "Verif.Webp.C101_image"
   ],
   "note": "The image-webp crate is a parameter."
  },
  {
   "property": "C102",
   "status": "proved",
   "theorems": [
    "Verif.Webp.C102_orientation"
   ],
   "note": "Induction over the sequence of calls; Orientation::from_exif_chunk is that of C15."
  },
  {
   "property": "C103",
   "status": "proved",
   "theorems": [
    "Verif.JpegDec.C103_open",
    "Verif.JpegDec.C103_read",
    "Verif.JpegDec.C103_limits"
   ],
   "note": "The zune-jpeg crate is a parameter."
  },
  {
   "property": "C104",
   "status": "partial",
   "theorems": [
    "Verif.CrateEnc.C104_qoi",
    "Verif.CrateEnc.C104_webp",
    "Verif.CrateEnc.C104_avif_converted",
    "Verif.CrateEnc.C104_avif_direct",
    "Verif.CrateEnc.C104_avif_other",
    "Verif.CrateEnc.C104_avif_empty_false",
    "Verif.CrateEnc.C104_avif_settings"
   ],
   "note": "Everything but the last sentence is proved; C104_avif_empty_false: a grey image without pixels is handed to ravif unchecked. The crates are parameters."
  },
  {
   "property": "C105",
   "status": "partial",
   "theorems": [
    "Verif.Boxed.C105_methods",
    "Verif.Boxed.C105_jpeg_webp",
    "Verif.Boxed.C105_tiff",
    "Verif.Boxed.C105_tiff_false"
   ],
   "note": "Every method but orientation proved for any decoder and any sequence of calls (C105_methods); for JPEG and WebP orientation as well, in any order (C105_jpeg_webp). Box does not forward orientation, so for TIFF the claim is false: C105_tiff shows the boxed answer is always NoTransforms, C105_tiff_false is the counterexample."
  },
  {
   "property": "C106",
   "status": "partial",
   "theorems": [
    "Verif.Save.C106_other_files",
    "Verif.Save.C106_unknown_extension",
    "Verif.Save.C106_save",
    "Verif.Save.C106_disabled",
    "Verif.Save.C106_bytes",
    "Verif.Save.C106_write_to_partial",
    "Verif.Save.C106_buffer",
    "Verif.Save.C106_gif",
    "Verif.Save.C106_gif_false",
    "Verif.Save.C106_open",
    "Verif.Save.C106_from_memory"
   ],
   "note": "Everything but GIF: C106_save, C106_unknown_extension, C106_disabled, C106_other_files, C106_bytes, C106_write_to_partial, C106_buffer, C106_open, C106_from_memory; encoders are arbitrary programs over a buffered file with short writes. For GIF save and write_to differ: C106_gif, C106_gif_false."
  },
  {
   "property": "C107",
   "status": "partial",
   "theorems": [
    "Verif.Save.C107_ok_partial",
    "Verif.Save.C107_ok_false",
    "Verif.Save.C107_old_file",
    "Verif.Save.C107_failed_false"
   ],
   "note": "Both halves are false of the code: C107_ok_false (an error of the final flush is lost), C107_failed_false (the old file is emptied first). Proved: at most the last 8192 bytes are missing after an Ok, none when the encoder flushes (C107_ok_partial); when the old file survives (C107_old_file)."
  },
  {
   "property": "C108",
   "status": "partial",
   "theorems": [
    "Verif.DynamicImage.C108_acts",
    "Verif.DynamicImage.C108_size",
    "Verif.DynamicImage.C108_resize",
    "Verif.DynamicImage.C108_fill",
    "Verif.DynamicImage.C108_nearest",
    "Verif.DynamicImage.C108_fill_empty_false"
   ],
   "note": "resize_to_fill of an empty image panics (C108_fill_empty_false), proved for images that are not empty; operations on f32 buffers are a parameter whose result sizes are assumed (FloatSizes); size statements are about calls that return, C108_nearest also shows that the call returns"
  },
  {
   "property": "C109",
   "status": "partial",
   "theorems": [
    "Verif.DynamicImage.C109_grayscale_partial",
    "Verif.DynamicImage.C109_empty_false"
   ],
   "note": "integer images that are not of width 0 and height above 1; for the latter the result depends on the colour type (C109_empty_false: panic for colour images)"
  },
  {
   "property": "C110",
   "status": "partial",
   "theorems": [
    "Verif.BufIter.C110_pixels",
    "Verif.BufIter.C110_rows",
    "Verif.BufIter.C110_enumerate_pixels_partial",
    "Verif.BufIter.C110_enumerate_rows_partial",
    "Verif.BufIter.C110_polled_false"
   ],
   "note": "complete for pixels(_mut) and rows(_mut); for the enumerating iterators as long as they are not asked again after their end until the 32-bit row counter overflows, which panics (C110_polled_false)"
  },
  {
   "property": "C111",
   "status": "partial",
   "theorems": [
    "Verif.EncoderTotal.C111_farbfeld",
    "Verif.EncoderTotal.C111_tga",
    "Verif.EncoderTotal.C111_pnm_partial",
    "Verif.EncoderTotal.C111_pnm_false",
    "Verif.EncoderTotal.C111_bmp_partial",
    "Verif.EncoderTotal.C111_bmp_palette_partial",
    "Verif.EncoderTotal.C111_bmp_false",
    "Verif.EncoderTotal.C111_hdr_partial",
    "Verif.EncoderTotal.C111_hdr_false",
    "Verif.EncoderTotal.C111_ico",
    "Verif.EncoderTotal.C111_jpeg"
   ],
   "note": "Proved without restriction for farbfeld, TGA and JPEG, for ICO relative to the PNG encoder, for PNM except packed L1 bitmaps without columns (C111_pnm_false: panic), for HDR except +inf samples (C111_hdr_false), for BMP with sides below 2^30 (C111_bmp_false: an empty image of 2^31 by 0 pixels panics). GIF, PNG, WebP, QOI, TIFF, OpenEXR and AVIF encode in other crates."
  },
  {
   "property": "C112",
   "status": "partial",
   "theorems": [
    "Verif.Tga.C112_partial",
    "Verif.Tga.C112_outside",
    "Verif.Tga.C112_right_to_left_false",
    "Verif.Tga.C112_map_origin_false",
    "Verif.Tga.C112_wide_index_false",
    "Verif.Tga.C112_unused_map_false",
    "Verif.Tga.C112_unknown_type_false"
   ],
   "note": "C112_partial and C112_outside are proved for all files of a supported kind with columns from left to right, colour maps that start at index 0, one-byte indices, and no unrelated colour map. Outside that the decoder is wrong, with witnesses: the right-to-left bit is ignored, the map origin is used as a byte offset, two-byte indices are read big-endian, an unused colour map of another depth makes the image all zero, and unknown image types are decoded as grey."
  },
  {
   "property": "C113",
   "status": "proved",
   "theorems": [
    "Verif.Hdr.C113_pixels"
   ],
   "note": "Exact (iff). At most seven repeat markers in a row: with more the shift overflows (C66_decode_total_false). The two length bytes of a component scanline are not checked by the code, and a scanline whose first pixel looks like its start is read by component whatever the width (C65_narrow_false); the specification says so."
  },
  {
   "property": "C114",
   "status": "proved",
   "theorems": [
    "Verif.Hdr.C114_header"
   ],
   "note": "Exact (iff), for every outcome of the functions on text of the standard library (from_utf8_lossy, trim, split_whitespace, parse::<f32>); parse::<u32> is modelled."
  },
  {
   "property": "C115",
   "status": "partial",
   "theorems": [
    "Verif.Pnm.C115_shows",
    "Verif.Pnm.C115_accepts",
    "Verif.Pnm.C115_unambiguous",
    "Verif.Pnm.C115_missing_false"
   ],
   "note": "Exact in both directions. Missing: numbers absent at the end of a text raster read as 0 (C115_missing_false); binary rasters of 2^32 bytes or more panic (C60_total_false) and widths of 2^32-8 or more are not covered; PAM (P7) is not covered here."
  },
  {
   "property": "C116",
   "status": "partial",
   "theorems": [
    "Verif.Pnm.C116_shows",
    "Verif.Pnm.C116_accepts",
    "Verif.Pnm.C116_untyped_false",
    "Verif.Pnm.C116_depth_false",
    "Verif.Pnm.C116_blank_false"
   ],
   "note": "Both directions. False as stated for files without a tuple type above 255 (C116_untyped_false), for GRAYSCALE with depth 0 (C116_depth_false) and for blank header lines (C116_blank_false), which the theorems exclude; C116_accepts demands ASCII comments and image bytes below 2^32."
  },
  {
   "property": "C117",
   "status": "proved",
   "theorems": [
    "Verif.Bmp.C117_rect",
    "Verif.Bmp.C117_fails",
    "Verif.Bmp.C117_rejects",
    "Verif.Bmp.C117_dropped_false"
   ],
   "note": "Both directions for all files: crop of the decoded image, error when the file does not decode, rejection of rectangles outside. The size of the buffer is a hypothesis; without it rows are dropped silently (C117_dropped_false)."
  },
  {
   "property": "C118",
   "status": "proved",
   "theorems": [
    "Verif.Jpeg.C118_gray",
    "Verif.Jpeg.C118_rgb",
    "Verif.Jpeg.C118_quality",
    "Verif.Jpeg.C118_best"
   ],
   "note": "The decoder of the specification computes with real numbers and does not round its samples; buffers of L8 and Rgb8 (what JpegEncoder::encode takes)."
  },
  {
   "property": "C119",
   "status": "partial",
   "theorems": [
    "Verif.C119_within",
    "Verif.C119_triangle",
    "Verif.C119_blur",
    "Verif.C119_clip_false"
   ],
   "note": "Proved for samples in 0..=1 (C119_within, C119_triangle, C119_blur; Catmull-Rom is C126_float, enlarging with Lanczos3 C127_float). The last sentence is false: C119_clip_false (enlarging a picture turns samples >= 2 into 1). Missing: shrinking with Lanczos3."
  },
  {
   "property": "C120",
   "status": "partial",
   "theorems": [
    "Verif.C120_invert",
    "Verif.C120_invert_twice",
    "Verif.C120_contrast_total",
    "Verif.C120_contrast",
    "Verif.C120_contrast_copy",
    "Verif.C120_contrast_monotone",
    "Verif.C120_hue",
    "Verif.C120_hue_copy",
    "Verif.C120_gray_rgb",
    "Verif.C120_gray_rgba",
    "Verif.C120_brighten_partial",
    "Verif.C120_brighten_false"
   ],
   "note": "Proved for invert, contrast, huerotate and grayscale. brighten: C120_brighten_false (brightening by 0 turns every sample below 1 into 0; NaN panics), C120_brighten_partial says what it does."
  },
  {
   "property": "C121",
   "status": "partial",
   "theorems": [
    "Verif.C121_extremes",
    "Verif.C121_rgba",
    "Verif.C121_lumaA",
    "Verif.C121_overlay",
    "Verif.C121_opaque_false",
    "Verif.C121_faint_false",
    "Verif.C121_lumaA_false"
   ],
   "note": "C121_extremes, C121_rgba, C121_lumaA, C121_overlay (opacity of the result at least 2^-60). False parts: C121_opaque_false (an opaque bottom gets alpha 1 - 2^-24), C121_faint_false (fainter results lose their colour), C121_lumaA_false."
  },
  {
   "property": "C122",
   "status": "partial",
   "theorems": [
    "Verif.C122_within_partial",
    "Verif.C122_shrink_partial",
    "Verif.C122_mean_false",
    "Verif.C122_black_false",
    "Verif.C122_white_false"
   ],
   "note": "C122_within_partial: no panic, size, lower bound as stated, upper bound too high by 1/2; C122_shrink_partial: every sample is the mean of its block plus 1/2. The claim itself is false: C122_mean_false (integer factors: all samples are the mean plus 1/2), C122_black_false (black becomes grey, enlarged black has stripes), C122_white_false (white becomes 1.5). f64 samples are not treated."
  },
  {
   "property": "C123",
   "status": "partial",
   "theorems": [
    "Verif.C123_formula_partial",
    "Verif.C123_threshold",
    "Verif.C123_unchanged_false",
    "Verif.C123_dot_false",
    "Verif.C123_negative_false",
    "Verif.C123_nan_false"
   ],
   "note": "C123_formula_partial: no panic, size, and the exact result, which compares samples and blurred samples only after cutting both to integers; C123_threshold: thresholds of 1 or more leave the picture alone, as they should. The claim is false: C123_unchanged_false (for a threshold of 0 pictures below white are returned unchanged), C123_dot_false (a sample next to white becomes black), C123_negative_false, C123_nan_false. Given the accuracy hypotheses on exp and sqrt of C87."
  },
  {
   "property": "C124",
   "status": "proved",
   "theorems": [
    "Verif.C124_boxes",
    "Verif.C124_within",
    "Verif.C124_empty",
    "Verif.C124_clip_false",
    "Verif.C124_infinite_false"
   ],
   "note": "C124_boxes, C124_within, C124_empty, given that sqrt is accurate (hypothesis SqrtOk, true of IEEE sqrt). Beyond the stated range of samples it fails: C124_clip_false (samples above 1 are cut), C124_infinite_false (one infinite sample makes the whole row NaN)."
  },
  {
   "property": "C125",
   "status": "proved",
   "theorems": [
    "Verif.C125_weighted",
    "Verif.C125_mean",
    "Verif.C125_clip_false",
    "Verif.C125_empty_false"
   ],
   "note": "C125_weighted, C125_mean. As for integer samples (C86) the gain is the sum as computed in f32. Beyond the stated inputs: C125_clip_false (samples above 1 are cut even by the identity kernel), C125_empty_false (a picture without rows panics)."
  },
  {
   "property": "C126",
   "status": "proved",
   "theorems": [
    "Verif.C126_enlarge",
    "Verif.C126_resize",
    "Verif.C126_constant",
    "Verif.C126_float_enlarge",
    "Verif.C126_float"
   ],
   "note": "Enlarging: both sides up to 27000, error at most 1/2 + max*75(w+h+53)/2^22 (C126_enlarge, C126_float_enlarge). Any new size up to 2^17 with min(old,new) <= 11000 and shrink factor <= 511: the weaker bound of C126_resize/C126_float. C126_constant needs the rounding slack to stay below 1/2: 8-bit samples with the two scales adding up to less than 19; for 16-bit samples constancy is only proved up to the error of C126_resize."
  },
  {
   "property": "C127",
   "status": "proved",
   "theorems": [
    "Verif.C127_enlarge",
    "Verif.C127_constant",
    "Verif.C127_float"
   ],
   "note": "Sides up to 11000, new sides up to 2^17; error at most 1/2 + max*240(w+h+26)/2^22 (C127_enlarge, C127_float); C127_constant for u8. sin and pi of the platform are assumed accurate (Libm.SinOk: sin within 2^-22 of the argument, pi within 2^-23); the specification uses Mathlib's real sinc. Shrinking with Lanczos3 is not covered."
  },
  {
   "property": "C128",
   "status": "partial",
   "theorems": [
    "Verif.DynamicImage.C128_new",
    "Verif.DynamicImage.C128_new_overflow",
    "Verif.DynamicImage.C128_as",
    "Verif.DynamicImage.C128_as_mut",
    "Verif.DynamicImage.C128_from_into",
    "Verif.DynamicImage.C128_into",
    "Verif.DynamicImage.C128_to_same",
    "Verif.DynamicImage.C128_from_luma32f",
    "Verif.DynamicImage.C128_from_lumaA32f",
    "Verif.DynamicImage.C128_clone_from",
    "Verif.DynamicImage.C128_flat",
    "Verif.DynamicImage.C128_bytes",
    "Verif.DynamicImage.C128_bytes_false"
   ],
   "note": "All parts are proved for every colour type, size and content; the last sentence holds when the container has no slack (C128_bytes says exactly when and that the pixels' bytes are always a prefix) and is false otherwise: C128_bytes_false, a 1x1 image over a longer container returns its extra samples too."
  },
  {
   "property": "C129",
   "status": "partial",
   "theorems": [
    "Verif.Gif.C129_try_encode",
    "Verif.Gif.C129_try_encode_error",
    "Verif.Gif.C129_collect",
    "Verif.Gif.C129_transcode",
    "Verif.Gif.C129_position_false"
   ],
   "note": "Everything is proved except the last sentence, which is false: the encoder ignores left and top of a frame, so animations that differ only in the positions give the same file (C129_position_false). The frames that the decoder yields have position 0."
  },
  {
   "property": "C130",
   "status": "partial",
   "theorems": [
    "Verif.C130_patterns",
    "Verif.C130_float_sizes",
    "Verif.DynamicImage.C130_size",
    "Verif.DynamicImage.C130_acts",
    "Verif.DynamicImage.C130_to_integers",
    "Verif.DynamicImage.C130_from_integers",
    "Verif.DynamicImage.C130_between_floats",
    "Verif.DynamicImage.C130_get_pixel",
    "Verif.DynamicImage.C130_put_get",
    "Verif.DynamicImage.C130_invert",
    "Verif.DynamicImage.C130_grayscale_partial"
   ],
   "note": "f32 samples as IEEE 754 bit patterns (C130_patterns). Proved for all patterns: conversions to integers, to f32 and back, between the f32 types, get_pixel/put_pixel, sizes of all operations (which discharges the assumption of C108); for samples between 0 and 1: invert, grayscale. Missing: grayscale of images of width 0 and height at least 2 (C05_pixels_false: the pixel iterator panics); a pattern written by an arithmetic operation is the canonical NaN or the positive zero, so signs of zero and payloads of NaN are not followed through arithmetic."
  },
  {
   "property": "C131",
   "status": "partial",
   "theorems": [
    "Verif.C131_image_slice",
    "Verif.C131_get_sample",
    "Verif.C131_pixel_samples",
    "Verif.C131_get_mut_sample",
    "Verif.C131_single_sample_partial",
    "Verif.C131_aliased_warning",
    "Verif.C131_flat_samples",
    "Verif.C131_try_upgrade",
    "Verif.C131_image_mut_slice",
    "Verif.C131_get_pixel_mut"
   ],
   "note": "All statements are proved for every layout and buffer except that a write through a mutable view changes only one coordinate: C131_single_sample_partial excludes layouts with a zero stride, for which as_view_mut wrongly succeeds (C25_zero_stride_false). C131_aliased_warning shows the documented warning of View::get_mut_sample."
  },
  {
   "property": "C132",
   "status": "partial",
   "theorems": [
    "Verif.DynamicImage.C132_blend",
    "Verif.DynamicImage.C132_extremes",
    "Verif.DynamicImage.C132_no_alpha",
    "Verif.DynamicImage.C132_transparent_false",
    "Verif.DynamicImage.C132_float",
    "Verif.DynamicImage.C132_overlay",
    "Verif.DynamicImage.C132_overlay_false"
   ],
   "note": "blend_pixel is proved for all ten variants except that for LumaA the extremes are only the formula; on images without alpha a transparent pixel overwrites (C132_transparent_false); overlay works in 8-bit RGBA, so 16-bit samples under the top image are cut to 8 bits even where it is transparent (C132_overlay_false); overlay onto f32 variants is C133_overlay."
  },
  {
   "property": "C133",
   "status": "partial",
   "theorems": [
    "Verif.DynamicImage.C133_rgba8",
    "Verif.DynamicImage.C133_affine",
    "Verif.DynamicImage.C133_crop",
    "Verif.DynamicImage.C133_put",
    "Verif.DynamicImage.C133_replace",
    "Verif.DynamicImage.C133_copy_from",
    "Verif.DynamicImage.C133_overlay",
    "Verif.DynamicImage.C133_tile",
    "Verif.DynamicImage.C133_exact_false",
    "Verif.DynamicImage.C133_copy_within_false"
   ],
   "note": "Copying between 16-bit images through the traits is not lossless: C133_exact_false (copy_from), C133_copy_within_false. copy_from is stated for offsets whose sum with the size fits u32 (see C07). copy_within on a DynamicImage is only the counterexample."
  },
  {
   "property": "C134",
   "status": "proved",
   "theorems": [
    "Verif.PixelOps.C134_map",
    "Verif.PixelOps.C134_map_with_alpha",
    "Verif.PixelOps.C134_map_without_alpha",
    "Verif.PixelOps.C134_alpha_kept",
    "Verif.PixelOps.C134_map2",
    "Verif.PixelOps.C134_pure",
    "Verif.PixelOps.C134_from_slice",
    "Verif.PixelOps.C134_channels"
   ],
   "note": "Closures are arbitrary functions of a state and an argument that may panic. map/apply on copies are the same function as in place (the receiver of map is not changed, which the type system gives)."
  },
  {
   "property": "C135",
   "status": "partial",
   "theorems": [
    "Verif.ReadImage.C135_wrong_length",
    "Verif.ReadImage.C135_openexr",
    "Verif.ReadImage.C135_jpeg",
    "Verif.ReadImage.C135_jpeg_false",
    "Verif.ReadImage.C135_qoi_false",
    "Verif.ReadImage.C135_farbfeld",
    "Verif.ReadImage.C135_hdr"
   ],
   "note": "The documented panic is proved for 14 formats. It is false of JPEG (C135_jpeg: a decoding error; C135_jpeg_false) and of QOI (C135_qoi_false: with a crate like qoi, which only needs a buffer that is long enough, a longer buffer is filled without complaint and a shorter one is an error)."
  },
  {
   "property": "C136",
   "status": "proved",
   "theorems": [
    "Verif.ReadImage.C136_qoi",
    "Verif.ReadImage.C136_roundtrip"
   ],
   "note": "The qoi crate is a parameter; the round trip is relative to Faithful, met by plain_faithful."
  },
  {
   "property": "C137",
   "status": "partial",
   "theorems": [
    "Verif.C137_get",
    "Verif.C137_get_panics",
    "Verif.C137_buffer",
    "Verif.C137_bounds_false",
    "Verif.C137_confined",
    "Verif.C137_change_bounds"
   ],
   "note": "The documented panic of get_pixel and put_pixel is false of views (C137_bounds_false): coordinates outside the view but inside the image behind it read and overwrite pixels the view does not contain. The images behind the view are assumed to panic outside their own bounds, which C137_buffer proves of buffers."
  },
  {
   "property": "C138",
   "status": "partial",
   "theorems": [
    "Verif.WriteImage.C138_wrong_length",
    "Verif.WriteImage.C138_hdr_short",
    "Verif.WriteImage.C138_hdr_longer",
    "Verif.WriteImage.C138_hdr_false"
   ],
   "note": "Proved for twelve encoders; QOI, farbfeld and BMP with a palette report an unsupported colour type before they look at the length. False of HDR: C138_hdr_longer (up to eleven bytes too many change nothing), C138_hdr_false (a buffer of two pixels puts two pixels into the file of a one-pixel picture)."
  },
  {
   "property": "C139",
   "status": "partial",
   "theorems": [
    "Verif.BufferEq.C139_equal_shows_same",
    "Verif.BufferEq.C139_equal_iff_shows_same",
    "Verif.BufferEq.C139_larger_false",
    "Verif.BufferEq.C139_exact",
    "Verif.BufferEq.C139_from_fn",
    "Verif.BufferEq.C139_refl",
    "Verif.BufferEq.C139_symm_trans",
    "Verif.BufferEq.C139_hash",
    "Verif.BufferEq.C139_f32",
    "Verif.BufferEq.C139_dynamic"
   ],
   "note": "Proved with the derive macros expanded and == of the samples as a parameter (integers, f32 on bit patterns). Equality iff the pictures agree for exact containers; new and put_pixel give and keep exact containers. C139_larger_false: two images over larger containers that show the same can be unequal, because == compares the rest of the container."
  }
 ]
}