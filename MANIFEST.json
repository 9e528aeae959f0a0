{
 "claims": [
  {
   "property": "C01",
   "status": "proved",
   "theorems": [
    "PreCore.Base128.buint128_roundtrip",
    "PreCore.Base128.buint128_prefix_free"
   ],
   "note": ""
  },
  {
   "property": "C02",
   "status": "partial",
   "theorems": [
    "PreCore.Base128.bint128_outcome",
    "PreCore.Base128.bint128_roundtrip_partial",
    "PreCore.Base128.bint128_roundtrip_violated",
    "PreCore.Base128.bint128_desync"
   ],
   "note": "Code violates the property for values below -2^55 (wrong value or one byte left over); bint128_outcome gives the exact result for every value, the round trip holds iff value >= -2^55."
  },
  {
   "property": "C03",
   "status": "proved",
   "theorems": [
    "PreCore.Endian.fbswap_reverses",
    "PreCore.Endian.fbswap_involutive",
    "PreCore.Endian.fbswapArray_image",
    "PreCore.Endian.fbswapArray_involutive"
   ],
   "note": ""
  },
  {
   "property": "C04",
   "status": "proved",
   "theorems": [
    "PreCore.BitField.get_layout",
    "PreCore.BitField.layout_disjoint",
    "PreCore.BitField.field_get_set_same",
    "PreCore.BitField.field_get_set_other",
    "PreCore.BitField.field_set_frame",
    "PreCore.BitField.field_get_value"
   ],
   "note": ""
  },
  {
   "property": "C05",
   "status": "proved",
   "theorems": [
    "PreCore.BitField.swapOut_mirrored",
    "PreCore.BitField.swapEndian_roundtrip",
    "PreCore.BitField.swapEndian_roundtrip_members"
   ],
   "note": ""
  },
  {
   "property": "C06",
   "status": "proved",
   "theorems": [
    "PreCore.Flags.flags_refine_set",
    "PreCore.Flags.flags_history",
    "PreCore.Flags.flags_construct",
    "PreCore.Flags.flags_eq_iff"
   ],
   "note": ""
  },
  {
   "property": "C07",
   "status": "proved",
   "theorems": [
    "PreCore.Crypt.xor_roundtrip",
    "PreCore.Crypt.xor_empty_key"
   ],
   "note": "An empty key divides by zero (xor_empty_key)."
  },
  {
   "property": "C08",
   "status": "proved",
   "theorems": [
    "PreCore.Crypt.blowfish_decode_encode",
    "PreCore.Crypt.blowfish_encode_decode"
   ],
   "note": ""
  },
  {
   "property": "C09",
   "status": "partial",
   "theorems": [
    "PreCore.Crypt.blowfish_mode_roundtrip_partial",
    "PreCore.Crypt.blowfish_mode_reverse_partial",
    "PreCore.Crypt.blowfish_ofb_symmetric",
    "PreCore.Crypt.blowfish_large_violated"
   ],
   "note": "Sizes up to 2 GiB. Violated above: the int index overflows (2 to 16 GiB, undefined) and from 16 to 32 GiB nothing is encrypted at all."
  },
  {
   "property": "C10",
   "status": "proved",
   "theorems": [
    "PreCore.Jenkins.jenHash_spec",
    "PreCore.Jenkins.jenHashCannon_published",
    "PreCore.Jenkins.jenHash_append",
    "PreCore.Jenkins.jenHash_order"
   ],
   "note": ""
  },
  {
   "property": "C100",
   "status": "proved",
   "theorems": [
    "PreCore.Mkdirs.mkdirs_one",
    "PreCore.Mkdirs.mkdirs_one_only",
    "PreCore.Mkdirs.mkdirs_batch",
    "PreCore.Mkdirs.mkdirs_batch_here",
    "PreCore.Mkdirs.mkdirs_batch_only"
   ],
   "note": "The part of C69 that holds."
  },
  {
   "property": "C101",
   "status": "proved",
   "theorems": [
    "PreCore.Printer.printer_delivers",
    "PreCore.Printer.printer_message"
   ],
   "note": "The part of C42 that holds."
  },
  {
   "property": "C102",
   "status": "proved",
   "theorems": [
    "PreCore.Py.ancestors_chain",
    "PreCore.Py.parents_not_deleted",
    "PreCore.Py.compare_equal",
    "PreCore.Py.compare_equivalence"
   ],
   "note": "The part of C79 that holds."
  },
  {
   "property": "C103",
   "status": "proved",
   "theorems": [
    "PreCore.Py.get_values",
    "PreCore.Py.get_values_refuses"
   ],
   "note": "The part of C78 that holds."
  },
  {
   "property": "C104",
   "status": "proved",
   "theorems": [
    "PreCore.Refl.flags_roundtrip"
   ],
   "note": "C26 for whole words."
  },
  {
   "property": "C105",
   "status": "proved",
   "theorems": [
    "PreCore.Refl.int_list_assign",
    "PreCore.Refl.int_list_roundtrip",
    "PreCore.Refl.sub_get",
    "PreCore.Refl.sub_set_get",
    "PreCore.Refl.elem_get",
    "PreCore.Refl.subclass_elem",
    "PreCore.Refl.subclass_member",
    "PreCore.Refl.subclass_none"
   ],
   "note": "The integer part of C27 and C59."
  },
  {
   "property": "C106",
   "status": "proved",
   "theorems": [
    "PreCore.Refl.pair_extended",
    "PreCore.Refl.desc_split",
    "PreCore.Settings.log_lists"
   ],
   "note": "The part of C67 and C75 that holds."
  },
  {
   "property": "C107",
   "status": "proved",
   "theorems": [
    "PreCore.Uni8.to_wide",
    "PreCore.Uni8.from_utf16",
    "PreCore.Uni8.from_utf16z",
    "PreCore.Uni8.from_utf32",
    "PreCore.Uni8.from_utf32z"
   ],
   "note": "The part of C73 that holds."
  },
  {
   "property": "C108",
   "status": "proved",
   "theorems": [
    "PreCore.Crypt.encodeBlock_textbook",
    "PreCore.Crypt.Pi.tables_are_pi"
   ],
   "note": "The key schedule is C57."
  },
  {
   "property": "C109",
   "status": "proved",
   "theorems": [
    "PreCore.Zip.open_get",
    "PreCore.Zip.open_get_member",
    "PreCore.Zip.open_refuses_member",
    "PreCore.Zip.open_refuses_unknown"
   ],
   "note": "The part of C33 that holds."
  },
  {
   "property": "C11",
   "status": "partial",
   "theorems": [
    "PreCore.Jenkins.hash3_tail_ignored",
    "PreCore.Jenkins.hash3_last_block_matters_partial"
   ],
   "note": "Violated: for lengths 24, 36, ... the last 12 bytes are ignored."
  },
  {
   "property": "C110",
   "status": "proved",
   "theorems": [
    "PreCore.Uni.uint_exact",
    "PreCore.Uni.int_exact",
    "PreCore.Uni.signed_exact",
    "PreCore.Uni.sample_each",
    "PreCore.Uni.sample_refuses",
    "PreCore.Uni.codec_registry"
   ],
   "note": "The part of C38 that holds."
  },
  {
   "property": "C111",
   "status": "proved",
   "theorems": [
    "PreCore.ReflIO.save_load",
    "PreCore.ReflIO.load_refuses"
   ],
   "note": "The part of C47 that holds."
  },
  {
   "property": "C112",
   "status": "proved",
   "theorems": [
    "PreCore.Wave.riff_size",
    "PreCore.Wave.calc_linear",
    "PreCore.Wave.valid_chunk_iff",
    "PreCore.Wave.bits_of_format"
   ],
   "note": "The part of C48 that holds."
  },
  {
   "property": "C113",
   "status": "proved",
   "theorems": [
    "PreCore.FileInfo.path_split"
   ],
   "note": "The part of C16 that holds."
  },
  {
   "property": "C114",
   "status": "proved",
   "theorems": [
    "PreCore.Base128.bint128_outcome"
   ],
   "note": "Complete description behind C02."
  },
  {
   "property": "C115",
   "status": "partial",
   "theorems": [
    "PreCore.BinFile.readers_are_cursors",
    "PreCore.BinFile.reopen_violated",
    "PreCore.BinFile.move_violated",
    "PreCore.BinFile.unopened_violated"
   ],
   "note": "Refinement for programs that open once and do not move. Violated: an object cannot be reopened (the second Open reports FileNotFound and fails the stream; Close_ is protected and never called); a moved object still uses the stream of the old one; use before Open dereferences null."
  },
  {
   "property": "C116",
   "status": "partial",
   "theorems": [
    "PreCore.UnitTest.bang_parses",
    "PreCore.UnitTest.check_partial",
    "PreCore.UnitTest.check_equal_violated",
    "PreCore.UnitTest.compare_checks",
    "PreCore.UnitTest.cmp_precedence_violated",
    "PreCore.UnitTest.cases_count",
    "PreCore.UnitTest.cases_zero",
    "PreCore.UnitTest.cases_cancel_violated"
   ],
   "note": "Violated: arguments are pasted without parentheses, so TEST_CHECK(a == b) is !a == b; comparing macros tear weaker operators apart; negative results cancel failures."
  },
  {
   "property": "C117",
   "status": "proved",
   "theorems": [
    "PreCore.Element.elements_sound",
    "PreCore.Element.elements_defined",
    "PreCore.Element.elements_use",
    "PreCore.Element.to_element"
   ],
   "note": "release(), reset() and get() by the client are not among the operations."
  },
  {
   "property": "C118",
   "status": "proved",
   "theorems": [
    "PreCore.BinFile.readers_are_cursors"
   ],
   "note": "The part of C115 that holds."
  },
  {
   "property": "C119",
   "status": "proved",
   "theorems": [
    "PreCore.UnitTest.compare_checks",
    "PreCore.UnitTest.not_check",
    "PreCore.UnitTest.cases_count",
    "PreCore.UnitTest.cases_zero"
   ],
   "note": "The part of C116 that holds."
  },
  {
   "property": "C12",
   "status": "partial",
   "theorems": [
    "PreCore.StringView.find_behaviour_partial",
    "PreCore.StringView.find_char_partial",
    "PreCore.StringView.find_not_late_partial",
    "PreCore.StringView.find_end_violated",
    "PreCore.StringView.find_first_char_violated",
    "PreCore.StringView.rfind_violated",
    "PreCore.StringView.rfind_char_partial",
    "PreCore.StringView.rfind_reversed"
   ],
   "note": "Violated: matches at the very end are missed, the first needle character is not compared, rfind reads before the view."
  },
  {
   "property": "C120",
   "status": "proved",
   "theorems": [
    "PreCore.PrinterColour.colours_erase",
    "PreCore.PrinterColour.plain_sinks",
    "PreCore.PrinterColour.colours_shown",
    "PreCore.PrinterColour.colours_own",
    "PreCore.PrinterColour.colour_fits",
    "PreCore.PrinterColour.colour_text_spec",
    "PreCore.PrinterColour.restore_spec",
    "PreCore.PrinterColour.colour_text_injective"
   ],
   "note": "The console functions do not take the lock; their calls are modelled as happening between flushes. POSIX branch."
  },
  {
   "property": "C121",
   "status": "proved",
   "theorems": [
    "PreCore.Max.suffix_text",
    "PreCore.Max.suffix_order",
    "PreCore.Max.suffix_again"
   ],
   "note": "std::sort is modelled by a sort whose result is unique."
  },
  {
   "property": "C122",
   "status": "proved",
   "theorems": [
    "PreCore.Max.resize_spec"
   ],
   "note": "The 3ds Max interface behind it is a list of layers."
  },
  {
   "property": "C123",
   "status": "proved",
   "theorems": [
    "PreCore.Max.params_independent",
    "PreCore.Max.accessors_distinct",
    "PreCore.Max.id_rule"
   ],
   "note": "The parameter block of 3ds Max is a map; types of values are not distinguished."
  },
  {
   "property": "C124",
   "status": "partial",
   "theorems": [
    "PreCore.PrinterColour.flush_shows",
    "PreCore.PrinterColour.colours_shown",
    "PreCore.PrinterColour.info_colour_violated",
    "PreCore.PrinterColour.colour_overflow_violated"
   ],
   "note": "Complete description of what is shown. Violated: an informational message has the colour set by the program on the first sink only, because each coloured sink's round resets all sinks; large numbers overflow buffer[32]."
  },
  {
   "property": "C125",
   "status": "partial",
   "theorems": [
    "PreCore.Max.suffix_text",
    "PreCore.Max.suffix_ambiguous_violated",
    "PreCore.Max.full_color_twice_violated"
   ],
   "note": "Violated: channels are written without separator; AddFullColor adds -2 on every call."
  },
  {
   "property": "C126",
   "status": "partial",
   "theorems": [
    "PreCore.Max.delete_spec",
    "PreCore.Max.delete_negative_violated"
   ],
   "note": "Violated: negative positions reach the interface when there are several layers."
  },
  {
   "property": "C127",
   "status": "partial",
   "theorems": [
    "PreCore.Block.bc5_blue_partial",
    "PreCore.Block.bc5_blue_violated",
    "PreCore.Block.bc5_blue_outside",
    "PreCore.Block.bc5_blue_short_violated"
   ],
   "note": "Holds to 2.2 steps for whole pixels on x86 and where char is unsigned. Violated by the language rules: with a signed char the conversion is undefined for every pixel inside the unit circle; sizes that are not a multiple of 3 are read past the end."
  },
  {
   "property": "C128",
   "status": "partial",
   "theorems": [
    "PreCore.Dds.bpp_dx10_partial",
    "PreCore.Dds.bpp_legacy_partial",
    "PreCore.Dds.bpp_kept",
    "PreCore.Dds.isBC_iff",
    "PreCore.Dds.layout_blocks",
    "PreCore.Dds.bpp_pairs_violated",
    "PreCore.Dds.bpp_palette_violated",
    "PreCore.Dds.bpp_uyvy_violated",
    "PreCore.Dds.typeless_violated"
   ],
   "note": "Exact for every format but 15: formats that pair pixels count twice (R8G8_B8G8, G8R8_G8B8, YUY2, Y216), P010, P016 and 420_OPAQUE have wrong sizes, palettes and five video formats count as empty; UYVY has no size; typeless block formats are not laid out in blocks. The enumerators P208, V208, V408 also have values that differ from the documented ones."
  },
  {
   "property": "C129",
   "status": "partial",
   "theorems": [
    "PreCore.Block.simd_ends",
    "PreCore.Block.simd_thirds_partial",
    "PreCore.Block.simd_thirds_violated",
    "PreCore.Block.simd_pixels_violated"
   ],
   "note": "End colours are within 7 of 255 for every block and nothing else is written. Interpolated colours are within 9 only if the end colours lie in the same half of every channel; whenever they lie in different halves of a channel the result is off by more than 70 (lanes are signed bytes). With pixeloffset 4 the twelve bytes of a row are stored without gaps, so the last texel of each row is never written."
  },
  {
   "property": "C13",
   "status": "proved",
   "theorems": [
    "PreCore.StringView.compare_spec",
    "PreCore.StringView.operators_total_order",
    "PreCore.StringView.operators_agree",
    "PreCore.StringView.compare_parts"
   ],
   "note": ""
  },
  {
   "property": "C130",
   "status": "proved",
   "theorems": [
    "PreCore.Vec.lanes_rounded",
    "PreCore.Vec.dot_simd_accurate",
    "PreCore.Vec.dot_accurate",
    "PreCore.Vec.product_accurate",
    "PreCore.Vec.identity_exact",
    "PreCore.Vec.whole_numbers_exact",
    "PreCore.Vec.lanes_rounded_small"
   ],
   "note": "The same functions as in C40 and C49 with the operators of float. No fused operations, no excess precision (x86-64 SSE)."
  },
  {
   "property": "C131",
   "status": "partial",
   "theorems": [
    "PreCore.Vec.length_accurate",
    "PreCore.Vec.normalize_accurate_partial",
    "PreCore.Vec.normalize_unit_partial",
    "PreCore.Vec.normalize_range_violated"
   ],
   "note": "Holds when the sum of the squares is between 2^-100 and 2^120. Violated outside: (2^64, 0, 0, 0) is normalized to the zero vector (the square is infinite) and (2^-80, 0, 0, 0) is left alone (the square is zero)."
  },
  {
   "property": "C132",
   "status": "partial",
   "theorems": [
    "PreCore.Vec.close_equal",
    "PreCore.Vec.equal_nearly",
    "PreCore.Vec.nan_unequal",
    "PreCore.Vec.order_exact",
    "PreCore.Vec.equal_symmetric_violated"
   ],
   "note": "Violated: not symmetric. 2 == 2 + 2^-22 but 2 + 2^-22 != 2, because the bounds are computed from the second operand and rounded. equal_nearly is for components up to 2^126."
  },
  {
   "property": "C133",
   "status": "proved",
   "theorems": [
    "PreCore.Vec.ofQuat_accurate",
    "PreCore.Vec.rotatePoint_accurate"
   ],
   "note": "What the exact functions do is C40 / C94 (RotatePoint rotates by the conjugate quaternion)."
  },
  {
   "property": "C134",
   "status": "partial",
   "theorems": [
    "PreCore.Uni.float32_exact",
    "PreCore.Uni.float16_exact",
    "PreCore.Uni.float16_single_partial",
    "PreCore.Uni.float16_single_violated",
    "PreCore.Uni.float11_exact_partial",
    "PreCore.Uni.float10_exact_partial",
    "PreCore.Uni.float10_violated",
    "PreCore.Uni.float11_subnormal_violated"
   ],
   "note": "32 bit floats and vectors of half floats (but NaN) are exact. Violated: a single half float -0 is read as -1 (all negative ones with exponent zero are wrong), NaNs of half float vectors become infinite (C39), subnormals of R11G11B10 are 16 times too small, its blue has the top bit of green below its own bits."
  },
  {
   "property": "C135",
   "status": "partial",
   "theorems": [
    "PreCore.SceneIter.loop_visits_lent",
    "PreCore.SceneIter.loop_visits_vector",
    "PreCore.SceneIter.loop_given_violated",
    "PreCore.SceneIter.loop_given_empty"
   ],
   "note": "Holds for every class that lends its list. Violated: begin() makes the iterator of a temporary Element, so a list that is given away is deleted before the loop starts, and the first round reads deleted memory, for every list that is not empty."
  },
  {
   "property": "C136",
   "status": "partial",
   "theorems": [
    "PreCore.VectorText.text_is_components",
    "PreCore.VectorText.text_injective",
    "PreCore.VectorText.stream_is_components_partial",
    "PreCore.VectorText.stream_bytes_violated"
   ],
   "note": "Violated by streams for all vectors of int8 and uint8: their components are written as characters. to_wstring is declared to return string and cannot be compiled; floats are C162."
  },
  {
   "property": "C137",
   "status": "partial",
   "theorems": [
    "PreCore.Rts.default_place",
    "PreCore.Rts.place_mul",
    "PreCore.Rts.chain_partial",
    "PreCore.Rts.chain_default_violated",
    "PreCore.Rts.equal_iff_close",
    "PreCore.Rts.nan_different",
    "PreCore.Rts.tuple_order"
   ],
   "note": "Exact arithmetic over commutative rings for the transforms, floats for the comparison. Violated: the fourth component of the default translation is 0, so a bone with the default value in front of its parent loses the parent's position. Symmetry of the comparison: C132."
  },
  {
   "property": "C138",
   "status": "proved",
   "theorems": [
    "PreCore.StringView.views_are_strings",
    "PreCore.StringView.views_stay_inside"
   ],
   "note": "Pointer level model; the documented preconditions (n <= size, C strings end) are hypotheses on the program."
  },
  {
   "property": "C139",
   "status": "partial",
   "theorems": [
    "PreCore.FloatTextProps.set_float_partial",
    "PreCore.FloatTextProps.set_float_words",
    "PreCore.FloatTextProps.set_float_sign_violated",
    "PreCore.FloatTextProps.set_float_sign_witness_violated",
    "PreCore.FloatTextProps.set_float_hex_partial"
   ],
   "note": "Violated: a positive number of at most 2^-1075 (such as 1e-400) stores the negative smallest normal number, because atof returns 0 and the test is fVal > 0. strtof/strtod are modelled by their definition (correctly rounded)."
  },
  {
   "property": "C14",
   "status": "partial",
   "theorems": [
    "PreCore.StringView.find_first_of_correct",
    "PreCore.StringView.find_last_of_correct",
    "PreCore.StringView.find_last_of_empty",
    "PreCore.StringView.find_last_of_empty_violated",
    "PreCore.StringView.find_first_not_of_partial",
    "PreCore.StringView.find_last_not_of_partial",
    "PreCore.StringView.find_not_of_violated",
    "PreCore.StringView.find_first_not_of_empty_set"
   ],
   "note": "find_first_of / find_last_of (non-empty view) are right; the *_not_of searches are wrong for sets of more than one character."
  },
  {
   "property": "C140",
   "status": "partial",
   "theorems": [
    "PreCore.FloatTextProps.get_float_rounded",
    "PreCore.FloatTextProps.set_get_short",
    "PreCore.FloatTextProps.get_set_get_stable",
    "PreCore.FloatTextProps.get_float_length",
    "PreCore.FloatTextProps.float_survives_iff",
    "PreCore.FloatTextProps.short_faithful",
    "PreCore.FloatTextProps.float_text_lossy_violated",
    "PreCore.FloatTextProps.float_subnormal_violated"
   ],
   "note": "Violated: %.6g and %.13g are too short, so most floats and doubles come back changed (float_survives_iff says exactly which do not), and subnormal numbers come back as the smallest normal number. Proved: the text is the correctly rounded one, short numbers survive, texts are stable."
  },
  {
   "property": "C141",
   "status": "proved",
   "theorems": [
    "PreCore.Vec.nan_lanes",
    "PreCore.Vec.nan_spreads",
    "PreCore.Vec.nan_product",
    "PreCore.Vec.div_zero",
    "PreCore.Vec.with_infinities",
    "PreCore.Vec.order_line",
    "PreCore.Vec.nan_spreads_small",
    "PreCore.Vec.small_lanes",
    "PreCore.Vec.sqrt_special"
   ],
   "note": "The payload of a NaN and the sign of the default NaN are those of x86; contraction to fused operations is excluded (trusted)."
  },
  {
   "property": "C142",
   "status": "partial",
   "theorems": [
    "PreCore.TypeReg.registration_succeeds",
    "PreCore.TypeReg.last_registered",
    "PreCore.TypeReg.registered_found_partial",
    "PreCore.TypeReg.member_class_partial",
    "PreCore.TypeReg.static_registration_partial",
    "PreCore.TypeReg.plain_classes_violated",
    "PreCore.TypeReg.names_clash_violated",
    "PreCore.TypeReg.static_registration_violated"
   ],
   "note": "Violated: classes created without flags all have the hash 0, so only the last one registered is found; names with equal 32 bit hashes (ChunkLayer, ChunkRoomColor) replace each other silently; static registration objects initialised before the maps use maps that are not constructed. Proved without clashes and with the maps first."
  },
  {
   "property": "C143",
   "status": "partial",
   "theorems": [
    "PreCore.PrinterWin.colour_shown",
    "PreCore.PrinterWin.colour_visible",
    "PreCore.PrinterWin.restore_violated"
   ],
   "note": "Violated: RestoreConsoleTextColor() sets grey on black instead of the saved attributes, so the colours of any other console are lost."
  },
  {
   "property": "C144",
   "status": "partial",
   "theorems": [
    "PreCore.UnitTestRun.comparisons_partial",
    "PreCore.UnitTestRun.checks_partial",
    "PreCore.UnitTestRun.function_result",
    "PreCore.UnitTestRun.program_result_partial",
    "PreCore.UnitTestRun.check_equality_violated",
    "PreCore.UnitTestRun.loose_argument_violated",
    "PreCore.UnitTestRun.nan_checks_violated",
    "PreCore.UnitTestRun.sum_violated"
   ],
   "note": "Violated: the macros paste their arguments without parentheses, so TEST_CHECK(a == b) tests !a == b (TEST_CHECK(1 == 2) succeeds) and arguments with &, |, &&, || or a second comparison are torn apart; the ordering checks accept NaN; return values other than 0 and 1 can cancel. Proved for arguments whose operators bind tighter than the comparison. Side effects, overflow and operators not listed in the model are excluded."
  },
  {
   "property": "C145",
   "status": "partial",
   "theorems": [
    "PreCore.FractionT.fraction_below",
    "PreCore.FractionT.fraction_refused",
    "PreCore.FractionT.fraction_agrees",
    "PreCore.FractionT.fraction_differs_violated"
   ],
   "note": "Violated in its last part: GetFraction rounds to the nearest float, GetFraction_t down, so the widths 2, 3, 4, 6, 8, 12 and 24 differ by one unit in the last place."
  },
  {
   "property": "C146",
   "status": "proved",
   "theorems": [
    "PreCore.ReflBin.load_frame",
    "PreCore.ReflBin.load_in_object",
    "PreCore.ReflBin.load_bound",
    "PreCore.ReflBin.load_layout_needed",
    "PreCore.ReflBin.registered_laid"
   ],
   "note": "Behind the end of a stream the program goes on with whatever its variables hold; taking that as arbitrary bytes this is the claim for the stream continued by them. Skips of 2 GiB or more, members of class type that are not registered and integers of more than 8 bytes have no answer in the model and are outside the claim."
  },
  {
   "property": "C147",
   "status": "partial",
   "theorems": [
    "PreCore.ReflXml.xml2_load_frame_partial",
    "PreCore.ReflXml.xml2_index_violated",
    "PreCore.ReflXml.xml2_axis_violated"
   ],
   "note": "Every document whose indexed names and axes are meant for elements and components that exist and whose texts are not longer than a list of bools, flags or strings; nothing is assumed about names of no member, missing members, repeated members, or values. Violated: an item number behind the end of a list and an unknown axis write outside the object."
  },
  {
   "property": "C148",
   "status": "proved",
   "theorems": [
    "PreCore.Zip.open_sound",
    "PreCore.Zip.get_sound",
    "PreCore.Zip.open_returns"
   ],
   "note": "Any file below 2^62 bytes, any origin and state of the reader; no assumption about the content for soundness."
  },
  {
   "property": "C149",
   "status": "partial",
   "theorems": [
    "PreCore.Zip.reads_independent_partial",
    "PreCore.Zip.truncated_member_violated",
    "PreCore.Zip.large_member_violated"
   ],
   "note": "Every file whose lengths are below 2 GiB and whose listed members lie in the file, every sequence of names. Violated: a truncated archive opens without error and reading its incomplete member fails the shared reader for all others; a stored member of 2 GiB or more makes opening itself fail the reader silently (the length is converted to int), so that nothing can be read and nothing behind it is listed."
  },
  {
   "property": "C15",
   "status": "partial",
   "theorems": [
    "PreCore.StringView.substr_correct",
    "PreCore.StringView.substr_throws",
    "PreCore.StringView.copy_behaviour_partial",
    "PreCore.StringView.copy_overflow_violated",
    "PreCore.StringView.copy_default_violated",
    "PreCore.StringView.remove_correct",
    "PreCore.StringView.remove_ub"
   ],
   "note": "substr and remove_* are right; copy writes one character too many, and nothing with the default count."
  },
  {
   "property": "C150",
   "status": "proved",
   "theorems": [
    "PreCore.ZipConc.concurrent_gets",
    "PreCore.ZipConc.gets_progress",
    "PreCore.ZipConc.gets_finish"
   ],
   "note": "Calls for members that lie in the file (see C149 for others); std::mutex is its specification; steps are the statements that touch the reader or the mutex. The stream is used by this archive only."
  },
  {
   "property": "C151",
   "status": "partial",
   "theorems": [
    "PreCore.IntVec.int_lanes",
    "PreCore.IntVec.int_exact",
    "PreCore.IntVec.int_wraps_partial",
    "PreCore.IntVec.mul_u16_violated",
    "PreCore.IntVec.i32_defined",
    "PreCore.IntVec.int_div",
    "PreCore.IntVec.int_bits",
    "PreCore.IntVec.int_sign",
    "PreCore.IntVec.int_shr",
    "PreCore.IntVec.int_shl",
    "PreCore.IntVec.int_shl_shr",
    "PreCore.IntVec.int_neg_partial",
    "PreCore.IntVec.neg_u16_violated",
    "PreCore.IntVec.int_dot",
    "PreCore.IntVec.int_length_partial",
    "PreCore.IntVec.length8_violated",
    "PreCore.IntVec.int_normalize",
    "PreCore.IntVec.int_normalize_violated"
   ],
   "note": "Violated: uint16 products from 2^31 (and unary minus of components from 32769) overflow the int they are promoted to; << of a negative or too large component is undefined (C++14); Length of 8 bit vectors longer than the element type holds is undefined; Normalize of integer vectors gives -1, 0, 1 and loses the direction. Length/Normalize are proved for 8 and 16 bit elements and any root function close enough to the exact one. Shifts by a scalar do not compile unless the element type is int32 (not modelled)."
  },
  {
   "property": "C152",
   "status": "partial",
   "theorems": [
    "PreCore.DirScanWin.attr_bits",
    "PreCore.DirScanWin.scanW_partial",
    "PreCore.DirScanWin.scanW_ends",
    "PreCore.DirScanWin.first_missed_violated",
    "PreCore.DirScanWin.fileTypeW_spec",
    "PreCore.DirScanWin.fileType_hosts_violated"
   ],
   "note": "Violated: what FindFirstFile returns is thrown away, so a folder that does not list '.' first (a drive root) loses its first entry; a missing path is Invalid here and Error on POSIX. Names are the UTF-8 texts after std::to_string."
  },
  {
   "property": "C153",
   "status": "proved",
   "theorems": [
    "PreCore.Crypt.blowfish_modes"
   ],
   "note": "Buffers up to 2 GiB; larger ones fail as C09 says."
  },
  {
   "property": "C154",
   "status": "partial",
   "theorems": [
    "PreCore.Uni8.uprintf_plain",
    "PreCore.Uni8.uprintf_wide_partial",
    "PreCore.Uni8.uprintf_violated",
    "PreCore.Uni8.isHelp_iff"
   ],
   "note": "Violated in builds with UNICODE: the text is used as a format string, so it is printed as it is exactly when it has no percent sign; '%' followed by anything but '%' is undefined. wprintf is modelled from the C standard."
  },
  {
   "property": "C155",
   "status": "partial",
   "theorems": [
    "PreCore.ZipFile.files_are_cursors_partial",
    "PreCore.ZipFile.move_violated",
    "PreCore.ZipFile.move_shares_violated",
    "PreCore.ZipFile.not_elided_violated"
   ],
   "note": "Violated: a moved file still reads from the buffer it was moved from (nothing, undefined once that is gone, or the bytes of another member put in its place); the same when the compiler does not elide the copy of Get's result (allowed)."
  },
  {
   "property": "C156",
   "status": "partial",
   "theorems": [
    "PreCore.ReflIO.saved_inside",
    "PreCore.ReflIO.inside_fits",
    "PreCore.ReflIO.too_many_classes_violated",
    "PreCore.ReflIO.too_many_names_violated",
    "PreCore.ReflIO.names_outside_violated",
    "PreCore.ReflIO.alias_hashes_misplaced_violated"
   ],
   "note": "Proved for every file written by Save (below 2 GiB). Violated for damaged files: no count or offset is compared with the size of the buffer, so every file whose records, enum names or member names do not fit makes Load write behind the buffer; the pointer to alias hashes is stored over the pointer to the aliases. Not modelled: memory for the lists of classes and enums, alignment."
  },
  {
   "property": "C157",
   "status": "partial",
   "theorems": [
    "PreCore.PyLife.kept_defined_partial",
    "PreCore.PyLife.lent_defined",
    "PreCore.PyLife.owned_deleted_once",
    "PreCore.PyLife.given_owned",
    "PreCore.PyLife.lender_not_kept_violated"
   ],
   "note": "Violated: a wrapper holds no reference to the wrapper it was lent from, so dropping a skeleton or motion that Python owns leaves its lists and their items dangling (bones = Skeleton().bones; len(bones)). Proved when parts are dropped first, and when the C++ program keeps the scene and lends everything; deletion exactly once in every program. Not modelled: given lists that refer to their giver."
  },
  {
   "property": "C158",
   "status": "partial",
   "theorems": [
    "PreCore.Vec.missing_component_partial",
    "PreCore.Vec.missing_too_long",
    "PreCore.Vec.missing_component_violated"
   ],
   "note": "Violated: nothing keeps 1 - |v|^2 from being negative, so quaternions whose missing component is about zero (rotations by 180 degrees) may give NaN, e.g. (20,28,29,0)/45. Proved to 2^-20 when the square of the rest is at most 1 - 2^-20. An old value in the place of the component is counted (C95)."
  },
  {
   "property": "C159",
   "status": "proved",
   "theorems": [
    "PreCore.Vec.toQuat_accurate",
    "PreCore.Vec.quat_matrix_quat"
   ],
   "note": "Elements up to d off (2^-18 <= d <= 2^-16) give components up to 16 d off. Stored unit quaternions (2^-23) come back up to sign and 2^-14. The fourth element of the second row must be 0, as the code reads it (C40)."
  },
  {
   "property": "C16",
   "status": "partial",
   "theorems": [
    "PreCore.FileInfo.path_split",
    "PreCore.FileInfo.folder_name_ext_partial",
    "PreCore.FileInfo.dot_in_folder_violated",
    "PreCore.FileInfo.reload_empty_violated"
   ],
   "note": "Violated when the last dot is in a folder name, and when an empty path is loaded over an old one."
  },
  {
   "property": "C160",
   "status": "proved",
   "theorems": [
    "PreCore.Vec.decompose_accurate",
    "PreCore.Vec.compose_accurate",
    "PreCore.Vec.compose_decompose_accurate"
   ],
   "note": "Elements up to 2^-18 of the scale off; scales come back up to 2^-16 of them, quaternions up to 2^-12. Scales of different signs cannot be told from a rotation (C40, decompose_mirror)."
  },
  {
   "property": "C161",
   "status": "partial",
   "theorems": [
    "PreCore.Vec.inverse_accurate",
    "PreCore.Vec.inverse_last_column",
    "PreCore.Vec.inverse_translation_accurate",
    "PreCore.Vec.inverse_product_accurate",
    "PreCore.Vec.inverse_product_border",
    "PreCore.Vec.inverse_identity_partial",
    "PreCore.Vec.inverse_small_row",
    "PreCore.Vec.inverse_identity_violated"
   ],
   "note": "Partial: the product is near the identity only without a translation (the fourth row is minus the inverse's rows, not columns, times the translation: C40 and inverse_identity_violated), and rows shorter than 0.001 are only transposed (inverse_small_row)."
  },
  {
   "property": "C162",
   "status": "partial",
   "theorems": [
    "PreCore.VectorText.float_text_is_components",
    "PreCore.VectorText.float_stream_is_components",
    "PreCore.VectorText.float_text_specials",
    "PreCore.VectorText.float_text_apart",
    "PreCore.VectorText.float_text_lossy_violated"
   ],
   "note": "The C library's %f and %g are modelled by their definition (Model/FloatText). Partial: the text does not determine the vector (float_text_lossy_violated)."
  },
  {
   "property": "C163",
   "status": "partial",
   "theorems": [
    "PreCore.XmlError.messages_say",
    "PreCore.XmlError.offset_right_iff",
    "PreCore.XmlError.message_identifies",
    "PreCore.XmlError.offset_violated"
   ],
   "note": "Violated as a position: the code assumes a header of 25 characters, pugixml writes one of 23 (offset_violated). Nodes without a name or added after parsing are not covered: the code subtracts pointers into different arrays (undefined)."
  },
  {
   "property": "C164",
   "status": "partial",
   "theorems": [
    "PreCore.PyInit.types_registered",
    "PreCore.PyInit.entries",
    "PreCore.PyInit.refs_exact",
    "PreCore.PyInit.refs_leaked_violated",
    "PreCore.PyInit.failure_silent",
    "PreCore.PyInit.names_reachable_violated"
   ],
   "note": "Violated: when the module does not take a type its reference is leaked; InitType goes on after failures and returns nothing, with an exception set (failure_silent); eight of the eleven names hold colons, so Python code reaches these types by getattr only."
  },
  {
   "property": "C17",
   "status": "proved",
   "theorems": [
    "PreCore.FileInfo.explode_join",
    "PreCore.FileInfo.explode_empty_ub"
   ],
   "note": "Non-empty paths; exploding the empty path is undefined behaviour (explode_empty_ub)."
  },
  {
   "property": "C18",
   "status": "proved",
   "theorems": [
    "PreCore.Stream.script_roundtrip",
    "PreCore.Stream.script_frame",
    "PreCore.Stream.scalar_image"
   ],
   "note": ""
  },
  {
   "property": "C19",
   "status": "proved",
   "theorems": [
    "PreCore.Stream.script_roundtrip",
    "PreCore.Stream.counted_prefix",
    "PreCore.Stream.lambda_roundtrip",
    "PreCore.Stream.readString_terminates",
    "PreCore.Stream.readString_failed_violated"
   ],
   "note": "On good streams. On a stream that already failed ReadString may not end (readString_failed_violated)."
  },
  {
   "property": "C20",
   "status": "partial",
   "theorems": [
    "PreCore.Stream.push_pop_partial",
    "PreCore.Stream.pop_after_eof_violated",
    "PreCore.Stream.nested_push_violated",
    "PreCore.Stream.tell_seek",
    "PreCore.Stream.origin_laws",
    "PreCore.Stream.seek_tell",
    "PreCore.Stream.getSize_spec"
   ],
   "note": "Violated after reading past the end (sticky failure) and for nested pushes (one slot)."
  },
  {
   "property": "C21",
   "status": "proved",
   "theorems": [
    "PreCore.Stream.padding_lands",
    "PreCore.Stream.script_roundtrip",
    "PreCore.Supercore.getPadding_spec"
   ],
   "note": ""
  },
  {
   "property": "C22",
   "status": "proved",
   "theorems": [
    "PreCore.Supercore.isPow2_iff",
    "PreCore.Supercore.skipStart_spec",
    "PreCore.Supercore.skipEnd_spec",
    "PreCore.Supercore.trim_spec",
    "PreCore.Supercore.trim_overread_violated"
   ],
   "note": "The results are right; on blank views one character outside of the view is read (trim_overread_violated)."
  },
  {
   "property": "C23",
   "status": "partial",
   "theorems": [
    "PreCore.Refl.set_signed_partial",
    "PreCore.Refl.set_unsigned_correct",
    "PreCore.Refl.set_signed_violated",
    "PreCore.Refl.int_roundtrip",
    "PreCore.Refl.bool_roundtrip",
    "PreCore.Refl.bool_invalid_violated"
   ],
   "note": "Unsigned fields are proved for every text; signed ones for texts that do not put blanks other than space/tab before the minus (then saturation goes to the wrong bound). Bool fields store false on malformed text."
  },
  {
   "property": "C24",
   "status": "partial",
   "theorems": [
    "PreCore.Refl.frame_partial",
    "PreCore.Refl.frame_lists_partial",
    "PreCore.Refl.element_frame_partial",
    "PreCore.Refl.typed_frame",
    "PreCore.Refl.array_overrun_violated",
    "PreCore.Refl.element_overrun_violated",
    "PreCore.Refl.component_check_violated"
   ],
   "note": "Lists of bools, flags and strings: proved for texts with fewer commas than the list has elements, and for every text that no more than one element per comma is reached; violated for a blank trailing item, and for element numbers out of range."
  },
  {
   "property": "C25",
   "status": "partial",
   "theorems": [
    "PreCore.Refl.enum_roundtrip_partial",
    "PreCore.Refl.enum_set_padded",
    "PreCore.Refl.enum_negative_violated"
   ],
   "note": "Violated for negative enumerators of enums narrower than 8 bytes (printed as empty text)."
  },
  {
   "property": "C26",
   "status": "partial",
   "theorems": [
    "PreCore.Refl.flags_roundtrip",
    "PreCore.Refl.flag_bit_violated"
   ],
   "note": "Round trip for words whose set bits are all registered; printing a single bit above 31 is undefined behaviour."
  },
  {
   "property": "C27",
   "status": "partial",
   "theorems": [
    "PreCore.Refl.list_assign_partial",
    "PreCore.Refl.int_list_assign",
    "PreCore.Refl.int_list_roundtrip",
    "PreCore.Refl.quoted_items_violated",
    "PreCore.Refl.short_list_violated",
    "PreCore.Refl.array_overrun_violated"
   ],
   "note": "Violated for quoted items (nothing assigned), lists with too few items (not reported) and blank trailing items."
  },
  {
   "property": "C28",
   "status": "partial",
   "theorems": [
    "PreCore.ReflBin.bin_roundtrip_partial",
    "PreCore.ReflBin.bin_int64_violated",
    "PreCore.ReflBin.bin_nested_diverges",
    "PreCore.ReflBin.bin_array_of_arrays_violated"
   ],
   "note": "Round trip for every class table, object, following stream and target object, with all field kinds; excluded because the code fails there (witness theorems): int64 below -2^55, classes nested two or more levels deep, arrays of arrays."
  },
  {
   "property": "C29",
   "status": "partial",
   "theorems": [
    "PreCore.ReflBin.load_class_mismatch",
    "PreCore.ReflBin.load_count_mismatch",
    "PreCore.ReflBin.load_items",
    "PreCore.ReflBin.load_other_version",
    "PreCore.ReflBin.load_error_lost_violated"
   ],
   "note": "Class mismatch, count mismatch, unknown items anywhere, other class versions; chunks of 2 GiB or more are skipped with a negative offset and excluded. An error of an earlier field is overwritten by a later good field (violated)."
  },
  {
   "property": "C30",
   "status": "partial",
   "theorems": [
    "PreCore.Threads.queue_safe",
    "PreCore.Threads.queue_complete",
    "PreCore.Threads.queue_terminates_partial",
    "PreCore.Threads.queue_zero_hw_violated"
   ],
   "note": "Safety for every schedule; termination for every fair run on a machine reporting at least one hardware thread. When hardware_concurrency() is 0 the call never returns (violated)."
  },
  {
   "property": "C31",
   "status": "partial",
   "theorems": [
    "PreCore.Alloc.linked_partial",
    "PreCore.Alloc.owned_sound",
    "PreCore.Alloc.deleter_foreign",
    "PreCore.Alloc.deleter_owned",
    "PreCore.Alloc.grow_shares_violated",
    "PreCore.Alloc.grow_frees_foreign_violated"
   ],
   "note": "Sound for every history in which the client does not allocate while it holds the foreign buffer; a growing std::vector does, and gets the same memory twice and deletes foreign memory (violated)."
  },
  {
   "property": "C32",
   "status": "partial",
   "theorems": [
    "PreCore.Pointer.fixup64_resolves",
    "PreCore.Pointer.fixup64_forced",
    "PreCore.Pointer.fixup32_forced",
    "PreCore.Pointer.fixup64_again",
    "PreCore.Pointer.fixup32_again",
    "PreCore.Pointer.fixAll64_history",
    "PreCore.Pointer.fixAll32_history",
    "PreCore.Pointer.assign32_resolves",
    "PreCore.Pointer.fixup32_resolves",
    "PreCore.Pointer.fixup32_null",
    "PreCore.Pointer.fixup32_far_violated",
    "PreCore.Pointer.two_threads_violated",
    "PreCore.Pointer.stale_list_violated"
   ],
   "note": "All histories of one thread. The list of fixed pointers is per thread and outlives the data (violations)."
  },
  {
   "property": "C33",
   "status": "partial",
   "theorems": [
    "PreCore.Zip.open_get",
    "PreCore.Zip.open_get_member",
    "PreCore.Zip.open_refuses_member",
    "PreCore.Zip.open_refuses_unknown",
    "PreCore.Zip.empty_member_violated",
    "PreCore.Zip.streamed_member_violated",
    "PreCore.Zip.open_never_returns_violated",
    "PreCore.Zip.large_member_violated"
   ],
   "note": "Every archive of stored members (below 2 GiB each) and directory records, at any origin. Violated: empty members are not listed; members with sizes in a data descriptor are neither refused nor skipped; a wrapped skip length makes opening loop forever."
  },
  {
   "property": "C34",
   "status": "partial",
   "theorems": [
    "PreCore.Morton.addr_bits",
    "PreCore.Morton.morton_injective",
    "PreCore.Morton.morton_bijective_partial",
    "PreCore.Morton.tall_violated",
    "PreCore.Morton.small_rectangle_violated"
   ],
   "note": "Bijection for every supported size that is at least as wide as high; injective for all supported sizes. For every texture higher than wide an address outside of the texture is produced, and rectangles with a side below 16 write outside of the mask arrays (violated)."
  },
  {
   "property": "C35",
   "status": "proved",
   "theorems": [
    "PreCore.Block.bc4_decodes",
    "PreCore.Block.bc5_decodes",
    "PreCore.Block.bc5GA_decodes",
    "PreCore.Block.bc3_decodes",
    "PreCore.Block.bc2_decodes",
    "PreCore.Block.bc1_decodes",
    "PreCore.Block.texel_inside"
   ],
   "note": "All block contents, positions and image sizes the 32 bit arithmetic can address. The colours of a colour block are a parameter here (any palette); C76 puts the ones of the code in. BC1 with alpha: C84."
  },
  {
   "property": "C36",
   "status": "partial",
   "theorems": [
    "PreCore.Dds.mips_tile",
    "PreCore.Dds.bytesBefore_next",
    "PreCore.Dds.block_level_partial",
    "PreCore.Dds.block_square_pow2",
    "PreCore.Dds.block_level_violated",
    "PreCore.Dds.block_flat_violated",
    "PreCore.Dds.empty_level_violated",
    "PreCore.Dds.large_level_violated",
    "PreCore.Dds.many_mips_violated",
    "PreCore.Dds.typeless_violated",
    "PreCore.Dds.numMipmaps_spec",
    "PreCore.Dds.computeBPP_dx10"
   ],
   "note": "Offsets and sizes for every texture below 4 Gibit per level; whole blocks for levels whose sides are multiples of 4 or at most 4. Violated for other sides, for flat levels, above 4 Gibit, above 15 levels, and for typeless block formats."
  },
  {
   "property": "C37",
   "status": "proved",
   "theorems": [
    "PreCore.Dds.legacy_roundtrip",
    "PreCore.Dds.forced_roundtrip",
    "PreCore.Dds.forced_representable",
    "PreCore.Dds.legacy_bpp",
    "PreCore.Dds.fourcc_roundtrip_partial",
    "PreCore.Dds.stale_alpha_violated"
   ],
   "note": "Both directions for every header; the reverse direction assumes a header whose alpha mode was not set before (stale_alpha_violated)."
  },
  {
   "property": "C38",
   "status": "partial",
   "theorems": [
    "PreCore.Uni.uint_exact",
    "PreCore.Uni.int_exact",
    "PreCore.Uni.noFrac_exact",
    "PreCore.Uni.signed_exact",
    "PreCore.Uni.sample_each",
    "PreCore.Uni.sample_refuses",
    "PreCore.Uni.sample_uint_partial",
    "PreCore.Uni.sample_int_partial",
    "PreCore.Uni.codec_registry",
    "PreCore.Uni.uint_reads_past_violated",
    "PreCore.Uni.norm_reads_past_violated",
    "PreCore.Uni.sample_past_end_violated",
    "PreCore.Uni.noFrac_leaks"
   ],
   "note": "Every buffer, stride, count and format; integer channels are exact bit slices. Violated: R32 and R32G32 integer codecs read 12 bytes, R16G16B16, R8G8B8 and R32G32 normalised codecs read past their element, and some channels of R5G6B5 and R11G11B10 mix in a neighbour's bit. Float codecs: see C39."
  },
  {
   "property": "C39",
   "status": "partial",
   "theorems": [
    "PreCore.EsFloat.toVector4_exact",
    "PreCore.EsFloat.half_toVector4_exact",
    "PreCore.EsFloat.toFloat_exact",
    "PreCore.EsFloat.half_toFloat_exact_partial",
    "PreCore.EsFloat.half_toFloat_violated",
    "PreCore.EsFloat.half_negative_zero_violated",
    "PreCore.EsFloat.toVector4_subnormal_violated",
    "PreCore.EsFloat.toVector4_nan_violated"
   ],
   "note": "Vector decoding of every half float that is no NaN is exact, scalar decoding of all but the 1024 negative ones with exponent zero (those are near -1: violated); also for every other layout's zeros, normals and infinities. Vector decoding turns NaNs into infinity."
  },
  {
   "property": "C40",
   "status": "partial",
   "theorems": [
    "PreCore.Vec.toMatrix_ops",
    "PreCore.Vec.matrix_laws",
    "PreCore.Vec.transpose_part",
    "PreCore.Vec.transpose_involutive_partial",
    "PreCore.Vec.transpose_violated",
    "PreCore.Vec.rotatePoint_conj",
    "PreCore.Vec.rotatePoint_violated",
    "PreCore.Vec.ofQuat_mul",
    "PreCore.Vec.ofQuat_orthogonal",
    "PreCore.Vec.toQuat_ofQuat",
    "PreCore.Vec.fromQuat_toQuat",
    "PreCore.Vec.compose_decompose",
    "PreCore.Vec.decompose_compose",
    "PreCore.Vec.decompose_spec",
    "PreCore.Vec.decompose_mirror",
    "PreCore.Vec.epsF_nearest",
    "PreCore.Vec.inverse_product",
    "PreCore.Vec.inverse_iff",
    "PreCore.Vec.inverse_partial",
    "PreCore.Vec.inverse_translation_violated",
    "PreCore.Vec.inverse_small_violated"
   ],
   "note": "Exact arithmetic over commutative rings, ordered fields and the reals, against Mathlib's matrices and quaternions; floats with rounding are C130, C131 and C133. Violated: the inverse of a rotation with translation is wrong (m * -m has translation t B - B t), rows shorter than 0.001 are not inverted, the 3x3 transpose loses fourth components, RotatePoint rotates by the conjugate quaternion."
  },
  {
   "property": "C41",
   "status": "partial",
   "theorems": [
    "PreCore.DirScan.scan_partial",
    "PreCore.DirScan.path_inj",
    "PreCore.DirScan.quoted_dir_violated",
    "PreCore.DirScan.backslash_dir_violated",
    "PreCore.DirScan.scan_ends"
   ],
   "note": "Every tree, depth and filter set whose folder names do not end in a quote or backslash (those are mis-scanned: violated). Readdir order is a parameter. Every scan of a finitely nested tree ends."
  },
  {
   "property": "C42",
   "status": "partial",
   "theorems": [
    "PreCore.Printer.printer_delivers",
    "PreCore.Printer.printer_message",
    "PreCore.Printer.printer_memory",
    "PreCore.Printer.flushAll_stale_violated",
    "PreCore.Printer.nul_text_violated"
   ],
   "note": "Every interleaving of any number of threads, NUL-free text, flushing through >>. The public FlushAll() without the terminator shows stale text, and NUL cuts text (violated)."
  },
  {
   "property": "C43",
   "status": "proved",
   "theorems": [
    "PreCore.VirtualIter.forEach_all",
    "PreCore.VirtualIter.forEach_vector",
    "PreCore.VirtualIter.explicit_position_violated",
    "PreCore.VirtualIter.explicit_position"
   ],
   "note": "Iterators constructed at an explicit position of 0xffffffff or more become the end iterator (explicit_position_violated)."
  },
  {
   "property": "C44",
   "status": "proved",
   "theorems": [
    "PreCore.Refl.lookup_correct"
   ],
   "note": ""
  },
  {
   "property": "C45",
   "status": "partial",
   "theorems": [
    "PreCore.Refl.enum_registration_partial",
    "PreCore.Refl.enum_init_violated"
   ],
   "note": "Proved for literal initialisers; expressions, octal, binary and negative hex literals get wrong values."
  },
  {
   "property": "C46",
   "status": "partial",
   "theorems": [
    "PreCore.Refl.bitmember_partial",
    "PreCore.Refl.bitmember_print",
    "PreCore.Refl.bitmember_signed_violated",
    "PreCore.Refl.bitmember_range_violated",
    "PreCore.Refl.bitmember_invalid_violated"
   ],
   "note": "Violated for signed members, for malformed text (member cleared) and for members of 31 bits or more (int shift)."
  },
  {
   "property": "C47",
   "status": "partial",
   "theorems": [
    "PreCore.ReflIO.save_load_partial",
    "PreCore.ReflIO.save_load",
    "PreCore.ReflIO.alias_hashes_lost_violated",
    "PreCore.ReflIO.save_behind_data_violated",
    "PreCore.ReflIO.load_refuses",
    "PreCore.ReflIO.loadMore_empty",
    "PreCore.ReflIO.load_again_violated"
   ],
   "note": "Every database of any size below 2 GiB, every buffer address; complete without alias hashes. Violated: alias hashes are always lost; saving behind other data writes the header to the start of the file. Loading with an object that already holds classes converts their pointers again (load_again_violated; modelled for classes only, without moving the buffer)."
  },
  {
   "property": "C48",
   "status": "partial",
   "theorems": [
    "PreCore.Wave.next_position",
    "PreCore.Wave.next_violated",
    "PreCore.Wave.walk_corrected",
    "PreCore.Wave.riff_size",
    "PreCore.Wave.calc_linear",
    "PreCore.Wave.calc_adpcm_violated",
    "PreCore.Wave.valid_chunk_iff"
   ],
   "note": "Next() lands 8 bytes before the following header for every chunk (violated); proved for the corrected step."
  },
  {
   "property": "C49",
   "status": "partial",
   "theorems": [
    "PreCore.Vec.lanes2",
    "PreCore.Vec.lanes3",
    "PreCore.Vec.lanes4_partial",
    "PreCore.Vec.normalize2_spec",
    "PreCore.Vec.normalize3_spec",
    "PreCore.Vec.normalize4_spec",
    "PreCore.Vec.orAssign_violated",
    "PreCore.Vec.mk4_lanes",
    "PreCore.Vec.get_bounds",
    "PreCore.Vec.shift_lanes",
    "PreCore.Vec.not_lanes",
    "PreCore.Vec.toFlt_signed",
    "PreCore.Vec.toFlt_unsigned_violated",
    "PreCore.Vec.intEq_iff",
    "PreCore.Vec.isSymetrical_iff",
    "PreCore.Vec.swapEndian_lanes",
    "PreCore.Vec.dot_sum",
    "PreCore.Vec.dot_comm",
    "PreCore.Vec.dpPs_comm_any",
    "PreCore.Vec.dot_bilinear",
    "PreCore.Vec.cross_laws",
    "PreCore.Vec.simd_cross",
    "PreCore.Vec.simd_cross_laws",
    "PreCore.Vec.neg_add",
    "PreCore.Vec.qConjugate_spec",
    "PreCore.Vec.fltEq_iff",
    "PreCore.Vec.simdLt_iff",
    "PreCore.Vec.simdLe_partial",
    "PreCore.Vec.simdLe_violated",
    "PreCore.Vec.simdIsSymetrical_iff",
    "PreCore.Vec.simdIsSymetrical_violated",
    "PreCore.Vec.simdSign_iff",
    "PreCore.Vec.simdNormalized_spec",
    "PreCore.Vec.qComputeElement_partial",
    "PreCore.Vec.qComputeElement_violated"
   ],
   "note": "Exact arithmetic; floats with rounding are C130 to C132. Violated: |= of four plain components stores the and, <= and >= are not lane by lane, IsSymetrical ignores the fourth component, unsigned lanes convert to negative floats, QComputeElement uses the old element."
  },
  {
   "property": "C50",
   "status": "partial",
   "theorems": [
    "PreCore.Crypt.keyEntry_packs_partial",
    "PreCore.Crypt.blowfish_key_bytes_ignored",
    "PreCore.Crypt.blowfish_empty_key"
   ],
   "note": "Violated for key bytes >= 0x80: sign extension wipes the bytes packed before them."
  },
  {
   "property": "C51",
   "status": "partial",
   "theorems": [
    "PreCore.Jenkins.jenHashCannon_one_char",
    "PreCore.Jenkins.jenHash_one_char_violated"
   ],
   "note": "True of the textbook hash at equal length; the library's finalisation breaks it (witness: two 6-character names)."
  },
  {
   "property": "C52",
   "status": "partial",
   "theorems": [
    "PreCore.Supercore.fourCC_bytes_partial",
    "PreCore.Supercore.fourCC_violated"
   ],
   "note": "All tags of 7-bit characters. Violated: a character above 0x7f is sign extended and sets all higher bytes."
  },
  {
   "property": "C53",
   "status": "partial",
   "theorems": [
    "PreCore.Supercore.atoh_partial",
    "PreCore.Supercore.atoh_violated"
   ],
   "note": "All characters up to 'f'. Violated: 'g' reads the terminator (0), later characters read past the table."
  },
  {
   "property": "C54",
   "status": "partial",
   "theorems": [
    "PreCore.Dds.masks_partial",
    "PreCore.Dds.masks_violated"
   ],
   "note": "Right for R16G16, A8, B5G6R5 and B5G5R5A1; red and blue are exchanged for 8 and 4 bit channels, and R10G10B10A2 loses its alpha mask."
  },
  {
   "property": "C55",
   "status": "partial",
   "theorems": [
    "PreCore.EsFloat.half_round_trip_partial",
    "PreCore.EsFloat.half_fromFloat_round_trip_partial",
    "PreCore.EsFloat.half_encode_below_half_violated",
    "PreCore.EsFloat.half_encode_violated",
    "PreCore.EsFloat.half_fromFloat_violated"
   ],
   "note": "Proved for the ranges the encoders handle; violated for all positive normals below 0.5 (vector), -1.0, 1.0 (scalar), negative subnormals."
  },
  {
   "property": "C56",
   "status": "partial",
   "theorems": [
    "PreCore.Uni.unorm_value",
    "PreCore.Uni.unorm_normalised",
    "PreCore.Uni.norm_value",
    "PreCore.Uni.norm_normalised",
    "PreCore.Uni.normMag_mono",
    "PreCore.Uni.normMag_ends",
    "PreCore.Uni.normMag_range",
    "PreCore.Uni.norm_min_violated",
    "PreCore.Uni.unorm_red_violated",
    "PreCore.Uni.unorm_blue_violated"
   ],
   "note": "Every format and channel whose bits are extracted cleanly, with exact round-to-nearest-even arithmetic. Violated: most negative signed value is below -1, red of R5G6B5 never reaches 1, blue of R11G11B10 depends on green."
  },
  {
   "property": "C57",
   "status": "partial",
   "theorems": [
    "PreCore.Crypt.encodeBlock_textbook",
    "PreCore.Crypt.setKey_textbook_partial",
    "PreCore.Crypt.Pi.tables_are_pi",
    "PreCore.Crypt.Pi.blowfish_published_partial"
   ],
   "note": "Encryption of a block is the published network for every key and block; the key schedule is the published one for keys of 7-bit characters, whatever the initial tables; the literal tables are proved to be the binary digits of Real.pi, so the cipher is Schneier's. Missing: 8-bit key characters, where the code deviates (C50)."
  },
  {
   "property": "C58",
   "status": "partial",
   "theorems": [
    "PreCore.Jenkins.hash3_lookup3_partial",
    "PreCore.Jenkins.hash3_lookup3_violated",
    "PreCore.Jenkins.hash3_tail_ignored"
   ],
   "note": "Equal to hashword for every text and seed except lengths 24, 36, 48, ...: there the closing step is left out (violated)."
  },
  {
   "property": "C59",
   "status": "partial",
   "theorems": [
    "PreCore.Refl.sub_get",
    "PreCore.Refl.sub_set_get",
    "PreCore.Refl.elem_get",
    "PreCore.Refl.flag_get_partial",
    "PreCore.Refl.flag_elem_get_partial",
    "PreCore.Refl.flag31_violated",
    "PreCore.Refl.flag_bit_violated",
    "PreCore.Refl.subclass_elem",
    "PreCore.Refl.subclass_member",
    "PreCore.Refl.subclass_none",
    "PreCore.Refl.flag31_any_violated"
   ],
   "note": "Integer elements and components of every list, class elements; single flags 0 to 30. Flag 31 and above is violated (int shift)."
  },
  {
   "property": "C60",
   "status": "proved",
   "theorems": [
    "PreCore.Refl.bool_set_text",
    "PreCore.Refl.bool_roundtrip"
   ],
   "note": ""
  },
  {
   "property": "C61",
   "status": "partial",
   "theorems": [
    "PreCore.ReflXml.xml_roundtrip_partial",
    "PreCore.ReflXml.hash_names",
    "PreCore.ReflXml.xml_leading_blank_violated",
    "PreCore.ReflXml.xml_markup_violated",
    "PreCore.ReflXml.xml_signed_bits_violated",
    "PreCore.FloatTextProps.xml_float_roundtrip",
    "PreCore.FloatTextProps.xml_float_tree_roundtrip",
    "PreCore.FloatTextProps.xml_float_lossy_violated"
   ],
   "note": "Every class and nesting, every value whose text denotes it (integers, 0/1 bools, registered enumerators and flags, floats that their decimal text denotes, lists of these, lists of vectors, lists of strings without commas, brackets and markup, strings without XML markup that do not start with a blank, bit members up to 30 bits). pugixml is a tree type and a fragment parser that keeps plain text. Violated: strings with markup are inserted as XML, leading blanks of strings are dropped, signed bit members below zero are loaded as another value. With the real texts of floats and doubles (C140): objects of floats, doubles, and arrays and vectors of them are restored to the bit when some text of 6 (13) digits denotes each (xml_float_roundtrip, xml_float_tree_roundtrip for nested classes); other floats come back changed (xml_float_lossy_violated)."
  },
  {
   "property": "C62",
   "status": "partial",
   "theorems": [
    "PreCore.ReflXml.xml_load_frame",
    "PreCore.ReflXml.xml_load_frame_lists_partial",
    "PreCore.ReflXml.xml_load_ignores",
    "PreCore.ReflXml.xml_load_defined_partial",
    "PreCore.ReflXml.xml_load_item_violated"
   ],
   "note": "Every document; with lists of bools, flags or strings every document in which their texts have fewer commas than elements (see C24). Violated: an item number behind the end of a list of classes dereferences a null instance."
  },
  {
   "property": "C63",
   "status": "partial",
   "theorems": [
    "PreCore.ReflXml.xml2_roundtrip_partial",
    "PreCore.ReflXml.xml2_unknown_child_violated",
    "PreCore.ReflXml.xml2_index_violated",
    "PreCore.ReflXml.xml2_axis_violated",
    "PreCore.ReflXml.xml2_byte_vectors_violated",
    "PreCore.ReflXml.xml2_nameless_list_violated",
    "PreCore.FloatTextProps.xml2_float_roundtrip"
   ],
   "note": "Round trip for every class, nesting and document, values as in C61 plus flags below 31, vectors of at most four components; lists need member names and vectors in lists no more components than a component has bytes. Excluded as violated in C61: signed bit members below zero, strings with markup (as nodes) or a leading blank. Violated: unknown child with attributes (null dereference), item number or axis name out of range (write outside the member), lists of vectors of two bytes, lists without member names. With the real texts of floats and doubles: objects of floats, doubles and vectors of up to four of them."
  },
  {
   "property": "C64",
   "status": "partial",
   "theorems": [
    "PreCore.Refl.macro_loop_partial",
    "PreCore.Refl.macro_loop_violated"
   ],
   "note": "Every list of 1 to 86, or 89, items, and rejection of 90 or more. Violated for exactly 88 items (last one silently dropped) and 87 (an empty item is added): the count table has 87 and 88 exchanged."
  },
  {
   "property": "C65",
   "status": "partial",
   "theorems": [
    "PreCore.Refl.table_describes_partial",
    "PreCore.Refl.members_independent_partial",
    "PreCore.Refl.registered_ids",
    "PreCore.Refl.getByHash_eq",
    "PreCore.Refl.table_limits_violated",
    "PreCore.Refl.nested_array_violated"
   ],
   "note": "Every class with offsets below 64 KiB, elements below 256 bytes and fewer than 65536 of them. Violated silently beyond these limits, and for arrays of arrays. Independence for lists of bools, flags and strings needs texts with fewer commas than elements (C24). offsetof and sizeof are inputs of the model; std::string has 32 bytes."
  },
  {
   "property": "C66",
   "status": "partial",
   "theorems": [
    "PreCore.Refl.typed_roundtrip_partial",
    "PreCore.Refl.typed_frame",
    "PreCore.Refl.typed_first_violated",
    "PreCore.Refl.typed_overflow_violated"
   ],
   "note": "Every integer width and element above 0, floats up to the narrowing conversion (a parameter). Violated: the first element of every list is refused, numbers that do not fit are stored truncated with success."
  },
  {
   "property": "C67",
   "status": "partial",
   "theorems": [
    "PreCore.Refl.pair_extended",
    "PreCore.Refl.desc_split",
    "PreCore.Refl.pair_varnames",
    "PreCore.Refl.pair_null_violated"
   ],
   "note": "Every EXTENDED class, member, description and setting. Violated: aliases of a VARNAMES class and formatted values of a class that is not EXTENDED index a null table (so SettingsManager::CreateLog is undefined for a VARNAMES class)."
  },
  {
   "property": "C68",
   "status": "partial",
   "theorems": [
    "PreCore.Refl.bitfield_by_name_partial",
    "PreCore.Refl.bitfield_order_violated"
   ],
   "note": "Bit fields whose members are registered from the first on in declaration order, members of at most 30 bits. Violated for any other order or when leading members are left out."
  },
  {
   "property": "C69",
   "status": "partial",
   "theorems": [
    "PreCore.Mkdirs.mkdirs_one",
    "PreCore.Mkdirs.mkdirs_plain",
    "PreCore.Mkdirs.mkdirs_batch",
    "PreCore.Mkdirs.mkdirs_batch_here",
    "PreCore.Mkdirs.mkdirs_one_only",
    "PreCore.Mkdirs.mkdirs_batch_only",
    "PreCore.Mkdirs.mkdirs_base_without_slash_violated",
    "PreCore.Mkdirs.mkdirs_missing_base_violated"
   ],
   "note": "Every tree without symbolic links, permissions and limits (the host is a POSIX model), NUL-free names, an empty base or an existing folder ending in a slash. Violated for a base without its slash (folders are made beside it) and for a base that does not exist (nothing is made)."
  },
  {
   "property": "C70",
   "status": "partial",
   "theorems": [
    "PreCore.Mkdirs.fileType_partial",
    "PreCore.Mkdirs.fileType_error",
    "PreCore.Mkdirs.fileType_socket_violated"
   ],
   "note": "Every mode; sockets and block devices are reported as directories (violated)."
  },
  {
   "property": "C71",
   "status": "partial",
   "theorems": [
    "PreCore.Except.header_alnum",
    "PreCore.Except.header_hex",
    "PreCore.Except.header_inj_partial",
    "PreCore.Except.header_zero_violated",
    "PreCore.Except.header_wide_violated"
   ],
   "note": "Every 32 bit number. Violated: what follows a zero byte is left out; 64 bit numbers and negative int32 numbers without a zero byte are read past their end."
  },
  {
   "property": "C72",
   "status": "proved",
   "theorems": [
    "PreCore.ZipRec.zip_write",
    "PreCore.ZipRec.zip_read",
    "PreCore.ZipRec.zip_round_trip",
    "PreCore.ZipRec.zip_short"
   ],
   "note": "All six record types, every value, natural alignment, streams without endian swapping."
  },
  {
   "property": "C73",
   "status": "partial",
   "theorems": [
    "PreCore.Uni8.to_wide",
    "PreCore.Uni8.from_utf16",
    "PreCore.Uni8.from_utf16z",
    "PreCore.Uni8.from_utf32",
    "PreCore.Uni8.from_utf32z",
    "PreCore.Uni8.wide_roundtrip_partial",
    "PreCore.Uni8.wide_roundtrip_violated",
    "PreCore.Uni8.empty_violated",
    "PreCore.Uni8.malformed_refused"
   ],
   "note": "Every text of Unicode scalar values; std::codecvt is modelled by the UTF-8/16 definitions. Round trip for non-empty texts below U+10000. Violated: characters above U+FFFF do not survive the wide round trip; the empty string is undefined."
  },
  {
   "property": "C74",
   "status": "partial",
   "theorems": [
    "PreCore.Py.py_for_partial",
    "PreCore.Py.py_refcount_violated",
    "PreCore.Py.py_nested_violated",
    "PreCore.Py.py_subscript",
    "PreCore.Py.py_subscript_violated",
    "PreCore.Py.py_enum",
    "PreCore.Py.py_enum_unknown_violated"
   ],
   "note": "Every list, index and enum. Violated: each for loop drops a reference it never took, nested loops share one position, indexes out of range throw a C++ exception through the interpreter, unknown enum names return null without an exception."
  },
  {
   "property": "C75",
   "status": "partial",
   "theorems": [
    "PreCore.Settings.help_lists_partial",
    "PreCore.Settings.help_null_violated",
    "PreCore.Settings.help_omits_violated",
    "PreCore.Settings.help_unregistered_violated",
    "PreCore.Settings.log_lists",
    "PreCore.Settings.log_null_violated"
   ],
   "note": "Every EXTENDED class of any nesting. Violated: classes that are not EXTENDED (null table), unregistered member classes (exception), values of flags and of lists of enums (left out)."
  },
  {
   "property": "C76",
   "status": "partial",
   "theorems": [
    "PreCore.Block.bc1_colours",
    "PreCore.Block.bc2_colours",
    "PreCore.Block.bc3_colours",
    "PreCore.Block.bc1A_colours_partial",
    "PreCore.Block.entry4_defined",
    "PreCore.Block.midpoint_violated",
    "PreCore.Block.third_cut_violated",
    "PreCore.Block.ends",
    "PreCore.Block.mix4_ok"
   ],
   "note": "IEEE single precision with every operation rounded, all end colours. Violated: in three colour blocks the middle colour is 127/255 of the sum, so the middle of white and white is 254; interpolated values that are whole numbers can be one lower."
  },
  {
   "property": "C77",
   "status": "partial",
   "theorems": [
    "PreCore.Uni.normMag_close",
    "PreCore.Uni.unorm_close",
    "PreCore.Uni.norm_close",
    "PreCore.Uni.resample_length",
    "PreCore.Uni.resample_get",
    "PreCore.Uni.resample_close",
    "PreCore.Uni.unpack_unorm"
   ],
   "note": "Every format, buffer, count, stride and all floats whose results stay in range; IEEE single precision, every operation rounded once (no FMA contraction). Only for channels whose bits are extracted cleanly (the others are violated, C56: red of R5G6B5, blue of R11G11B10), and without the most negative signed number."
  },
  {
   "property": "C78",
   "status": "partial",
   "theorems": [
    "PreCore.Py.get_values",
    "PreCore.Py.get_values_refuses",
    "PreCore.Py.get_values_item_violated",
    "PreCore.Py.frame_rate_partial",
    "PreCore.Py.frame_rate_violated"
   ],
   "note": "Every track and list of numbers. The interpreter is a parameter (number conversion). Violated: a list with an item that is no number returns values with an exception set; negative or too large frame rates wrap around with success."
  },
  {
   "property": "C79",
   "status": "partial",
   "theorems": [
    "PreCore.Py.parents_not_deleted",
    "PreCore.Py.ancestors_chain",
    "PreCore.Py.compare_equal",
    "PreCore.Py.compare_equivalence",
    "PreCore.Py.compare_order_violated",
    "PreCore.Py.none_lost_violated",
    "PreCore.Py.wrapper_leak_violated"
   ],
   "note": "Every skeleton and history of reads. Violated: the parent of a root gives away a reference of None it never took; wrappers are never freed; different bones are each greater than the other."
  },
  {
   "property": "C80",
   "status": "partial",
   "theorems": [
    "PreCore.Py.void_calls_caught",
    "PreCore.Py.void_calls_sliced_violated",
    "PreCore.Py.modify_error_uncaught_violated"
   ],
   "note": "Violated: the error is sliced to std::exception (type and message lost), ModifyError derives privately so no std handler takes it."
  },
  {
   "property": "C81",
   "status": "partial",
   "theorems": [
    "PreCore.Hk.correction_reads_partial",
    "PreCore.Hk.correction_identifies_partial",
    "PreCore.Hk.correction_ambiguous_violated"
   ],
   "note": "Every matrix that maps axes to axes (what the presets are for). Violated for rows with several entries: the text is ambiguous."
  },
  {
   "property": "C82",
   "status": "proved",
   "theorems": [
    "PreCore.Pugiex.parse_options",
    "PreCore.Pugiex.format_options",
    "PreCore.Pugiex.defaults",
    "PreCore.Pugiex.parse_option_on",
    "PreCore.Pugiex.from_file",
    "PreCore.Pugiex.collect_children"
   ],
   "note": "pugixml's constants are the specification, its parser a status parameter, its tree the type of C61."
  },
  {
   "property": "C83",
   "status": "partial",
   "theorems": [
    "PreCore.Pugiex.py_enum_access",
    "PreCore.Pugiex.py_enum_violated"
   ],
   "note": "Every enum of distinct names and every valid index. Violated: indexes out of range are undefined behaviour, unknown names return null without an exception, negative enumerators become huge."
  },
  {
   "property": "C84",
   "status": "partial",
   "theorems": [
    "PreCore.Block.bc1A_decodes_partial",
    "PreCore.Block.bc1A_alpha_violated",
    "PreCore.Block.bc1A_colours_partial"
   ],
   "note": "Colours for all blocks; alpha only where the code writes it. Violated: alpha stays unwritten for four colour blocks."
  },
  {
   "property": "C85",
   "status": "proved",
   "theorems": [
    "PreCore.StringView.find_first_of_correct",
    "PreCore.StringView.find_last_of_correct",
    "PreCore.StringView.find_last_of_empty"
   ],
   "note": "The part of C14 that holds."
  },
  {
   "property": "C86",
   "status": "proved",
   "theorems": [
    "PreCore.StringView.substr_correct",
    "PreCore.StringView.substr_throws",
    "PreCore.StringView.remove_correct"
   ],
   "note": "The part of C15 that holds; copy is violated there."
  },
  {
   "property": "C87",
   "status": "proved",
   "theorems": [
    "PreCore.Stream.tell_seek",
    "PreCore.Stream.seek_tell",
    "PreCore.Stream.origin_laws",
    "PreCore.Stream.getSize_spec"
   ],
   "note": "The part of C20 that holds."
  },
  {
   "property": "C88",
   "status": "proved",
   "theorems": [
    "PreCore.Refl.set_unsigned_correct",
    "PreCore.Refl.int_roundtrip"
   ],
   "note": "The part of C23 that holds for every text."
  },
  {
   "property": "C89",
   "status": "proved",
   "theorems": [
    "PreCore.Threads.queue_safe",
    "PreCore.Threads.queue_complete"
   ],
   "note": "Safety part of C30, including zero hardware threads (the call then does not return)."
  },
  {
   "property": "C90",
   "status": "proved",
   "theorems": [
    "PreCore.Alloc.owned_sound",
    "PreCore.Alloc.deleter_foreign",
    "PreCore.Alloc.deleter_owned"
   ],
   "note": "The part of C31 that holds for every client."
  },
  {
   "property": "C91",
   "status": "proved",
   "theorems": [
    "PreCore.Pointer.fixup64_resolves",
    "PreCore.Pointer.fixup64_forced",
    "PreCore.Pointer.fixup32_forced",
    "PreCore.Pointer.fixup64_again",
    "PreCore.Pointer.fixup32_again",
    "PreCore.Pointer.fixAll64_history",
    "PreCore.Pointer.fixAll32_history",
    "PreCore.Pointer.assign32_resolves",
    "PreCore.Pointer.fixup32_resolves",
    "PreCore.Pointer.fixup32_null"
   ],
   "note": "The part of C32 that holds; the list of fixed pointers starts empty and belongs to the thread."
  },
  {
   "property": "C92",
   "status": "proved",
   "theorems": [
    "PreCore.Block.bc1_colours",
    "PreCore.Block.bc2_colours",
    "PreCore.Block.bc3_colours",
    "PreCore.Block.entry4_defined",
    "PreCore.Block.mix4_ok",
    "PreCore.Block.ends"
   ],
   "note": "The four colour part of C76."
  },
  {
   "property": "C93",
   "status": "proved",
   "theorems": [
    "PreCore.Dds.mips_tile",
    "PreCore.Dds.bytesBefore_next",
    "PreCore.Dds.numMipmaps_spec",
    "PreCore.Dds.computeBPP_dx10"
   ],
   "note": "The part of C36 that holds; whether a level is a whole number of blocks is C36."
  },
  {
   "property": "C94",
   "status": "proved",
   "theorems": [
    "PreCore.Vec.toMatrix_ops",
    "PreCore.Vec.matrix_laws",
    "PreCore.Vec.ofQuat_mul",
    "PreCore.Vec.ofQuat_orthogonal",
    "PreCore.Vec.toQuat_ofQuat",
    "PreCore.Vec.fromQuat_toQuat",
    "PreCore.Vec.compose_decompose",
    "PreCore.Vec.decompose_compose",
    "PreCore.Vec.decompose_spec"
   ],
   "note": "The part of C40 that holds; exact arithmetic; floats with rounding are C130, C131 and C133 (ToQuat, Decompose and the inverse only exactly)."
  },
  {
   "property": "C95",
   "status": "proved",
   "theorems": [
    "PreCore.Vec.lanes2",
    "PreCore.Vec.lanes3",
    "PreCore.Vec.dot_sum",
    "PreCore.Vec.dot_comm",
    "PreCore.Vec.dot_bilinear",
    "PreCore.Vec.cross_laws",
    "PreCore.Vec.simd_cross",
    "PreCore.Vec.simd_cross_laws",
    "PreCore.Vec.swapEndian_lanes",
    "PreCore.Vec.mk4_lanes",
    "PreCore.Vec.get_bounds",
    "PreCore.Vec.shift_lanes",
    "PreCore.Vec.not_lanes"
   ],
   "note": "The part of C49 that holds."
  },
  {
   "property": "C96",
   "status": "proved",
   "theorems": [
    "PreCore.ReflXml.xml_load_frame",
    "PreCore.ReflXml.xml_load_ignores"
   ],
   "note": "The part of C62 that holds; definedness is C62."
  },
  {
   "property": "C97",
   "status": "proved",
   "theorems": [
    "PreCore.ReflBin.load_class_mismatch",
    "PreCore.ReflBin.load_count_mismatch",
    "PreCore.ReflBin.load_items",
    "PreCore.ReflBin.load_other_version"
   ],
   "note": "The part of C29 that holds."
  },
  {
   "property": "C98",
   "status": "proved",
   "theorems": [
    "PreCore.Morton.addr_bits",
    "PreCore.Morton.morton_injective"
   ],
   "note": "The part of C34 that holds for all supported sizes."
  },
  {
   "property": "C99",
   "status": "proved",
   "theorems": [
    "PreCore.EsFloat.toVector4_exact",
    "PreCore.EsFloat.half_toVector4_exact"
   ],
   "note": "The part of C39 that holds."
  }
 ]
}