{
"PreCore.Base128.buint128_roundtrip": [
"Classical.choice",
"Quot.sound",
"propext"
],
"PreCore.Base128.buint128_prefix_free": [
"Classical.choice",
"Quot.sound",
"propext"
],
"PreCore.Base128.bint128_outcome": [
"Classical.choice",
"Quot.sound",
"propext"
],
"PreCore.Base128.bint128_roundtrip_partial": [
"Classical.choice",
"Quot.sound",
"propext"
],
"PreCore.Base128.bint128_roundtrip_violated": [
"Classical.choice",
"Quot.sound",
"propext"
],
"PreCore.Base128.bint128_desync": [
"Classical.choice",
"Quot.sound",
"propext"
],
"PreCore.Endian.fbswap_reverses": [
"Quot.sound",
"propext"
],
"PreCore.Endian.fbswap_involutive": [
"Quot.sound",
"propext"
],
"PreCore.Endian.fbswapArray_image": [
"Quot.sound",
"propext"
],
"PreCore.Endian.fbswapArray_involutive": [
"Quot.sound",
"propext"
],
"PreCore.BitField.get_layout": [
"Quot.sound",
"propext"
],
"PreCore.BitField.layout_disjoint": [
"Quot.sound",
"propext"
],
"PreCore.BitField.field_get_set_same": [
"Classical.choice",
"Quot.sound",
"propext"
],
"PreCore.BitField.field_get_set_other": [
"Classical.choice",
"Quot.sound",
"propext"
],
"PreCore.BitField.field_set_frame": [
"Classical.choice",
"Quot.sound",
"propext"
],
"PreCore.BitField.field_get_value": [
"Classical.choice",
"Quot.sound",
"propext"
],
"PreCore.BitField.swapOut_mirrored": [
"Classical.choice",
"Quot.sound",
"propext"
],
"PreCore.BitField.swapEndian_roundtrip": [
"Classical.choice",
"Quot.sound",
"propext"
],
"PreCore.BitField.swapEndian_roundtrip_members": [
"Classical.choice",
"Quot.sound",
"propext"
],
"PreCore.Flags.flags_refine_set": [
"Classical.choice",
"Quot.sound",
"propext"
],
"PreCore.Flags.flags_history": [
"Classical.choice",
"Quot.sound",
"propext"
],
"PreCore.Flags.flags_construct": [
"Quot.sound",
"propext"
],
"PreCore.Flags.flags_eq_iff": [
"Quot.sound",
"propext"
],
"PreCore.Crypt.xor_roundtrip": [
"Classical.choice",
"Quot.sound",
"propext"
],
"PreCore.Crypt.xor_empty_key": [
"Quot.sound",
"propext"
],
"PreCore.Crypt.blowfish_decode_encode": [
"Quot.sound",
"propext"
],
"PreCore.Crypt.blowfish_encode_decode": [
"Quot.sound",
"propext"
],
"PreCore.Crypt.blowfish_mode_roundtrip_partial": [
"Classical.choice",
"Quot.sound",
"propext"
],
"PreCore.Crypt.blowfish_mode_reverse_partial": [
"Classical.choice",
"Quot.sound",
"propext"
],
"PreCore.Crypt.blowfish_ofb_symmetric": [
"Quot.sound",
"propext"
],
"PreCore.Crypt.blowfish_large_violated": [
"Quot.sound",
"propext"
],
"PreCore.Jenkins.jenHash_spec": [
"Quot.sound",
"propext"
],
"PreCore.Jenkins.jenHashCannon_published": [
"Quot.sound",
"propext"
],
"PreCore.Jenkins.jenHash_append": [
"Quot.sound",
"propext"
],
"PreCore.Jenkins.jenHash_order": [
"Quot.sound",
"propext"
],
"PreCore.Mkdirs.mkdirs_one": [
"Classical.choice",
"Quot.sound",
"propext"
],
"PreCore.Mkdirs.mkdirs_one_only": [
"Quot.sound",
"propext"
],
"PreCore.Mkdirs.mkdirs_batch": [
"Classical.choice",
"Quot.sound",
"propext"
],
"PreCore.Mkdirs.mkdirs_batch_here": [
"Classical.choice",
"Quot.sound",
"propext"
],
"PreCore.Mkdirs.mkdirs_batch_only": [
"Quot.sound",
"propext"
],
"PreCore.Printer.printer_delivers": [
"Classical.choice",
"Quot.sound",
"propext"
],
"PreCore.Printer.printer_message": [
"Classical.choice",
"Quot.sound",
"propext"
],
"PreCore.Py.ancestors_chain": [
"Quot.sound",
"propext"
],
"PreCore.Py.parents_not_deleted": [
"propext"
],
"PreCore.Py.compare_equal": [],
"PreCore.Py.compare_equivalence": [
"propext"
],
"PreCore.Py.get_values": [
"Quot.sound",
"propext"
],
"PreCore.Py.get_values_refuses": [],
"PreCore.Refl.flags_roundtrip": [
"Classical.choice",
"Quot.sound",
"propext"
],
"PreCore.Refl.int_list_assign": [
"Classical.choice",
"Quot.sound",
"propext"
],
"PreCore.Refl.int_list_roundtrip": [
"Classical.choice",
"Quot.sound",
"propext"
],
"PreCore.Refl.sub_get": [
"Classical.choice",
"Quot.sound",
"propext"
],
"PreCore.Refl.sub_set_get": [
"Classical.choice",
"Quot.sound",
"propext"
],
"PreCore.Refl.elem_get": [
"Classical.choice",
"Quot.sound",
"propext"
],
"PreCore.Refl.subclass_elem": [
"Quot.sound",
"propext"
],
"PreCore.Refl.subclass_member": [
"Quot.sound",
"propext"
],
"PreCore.Refl.subclass_none": [
"propext"
],
"PreCore.Refl.pair_extended": [
"Classical.choice",
"Quot.sound",
"propext"
],
"PreCore.Refl.desc_split": [
"Quot.sound",
"propext"
],
"PreCore.Settings.log_lists": [
"Classical.choice",
"Quot.sound",
"propext"
],
"PreCore.Uni8.to_wide": [
"Classical.choice",
"Quot.sound",
"propext"
],
"PreCore.Uni8.from_utf16": [
"Classical.choice",
"Quot.sound",
"propext"
],
"PreCore.Uni8.from_utf16z": [
"Classical.choice",
"Quot.sound",
"propext"
],
"PreCore.Uni8.from_utf32": [
"Classical.choice",
"Quot.sound",
"propext"
],
"PreCore.Uni8.from_utf32z": [
"Classical.choice",
"Quot.sound",
"propext"
],
"PreCore.Crypt.encodeBlock_textbook": [
"Quot.sound",
"propext"
],
"PreCore.Crypt.Pi.tables_are_pi": [
"Classical.choice",
"Quot.sound",
"propext"
],
"PreCore.Zip.open_get": [
"Classical.choice",
"Quot.sound",
"propext"
],
"PreCore.Zip.open_get_member": [
"Classical.choice",
"Quot.sound",
"propext"
],
"PreCore.Zip.open_refuses_member": [
"Classical.choice",
"Quot.sound",
"propext"
],
"PreCore.Zip.open_refuses_unknown": [
"Classical.choice",
"Quot.sound",
"propext"
],
"PreCore.Jenkins.hash3_tail_ignored": [
"Quot.sound",
"propext"
],
"PreCore.Jenkins.hash3_last_block_matters_partial": [
"Quot.sound",
"propext"
],
"PreCore.Uni.uint_exact": [
"Classical.choice",
"Quot.sound",
"propext"
],
"PreCore.Uni.int_exact": [
"Classical.choice",
"Quot.sound",
"propext"
],
"PreCore.Uni.signed_exact": [
"Classical.choice",
"Quot.sound",
"propext"
],
"PreCore.Uni.sample_each": [
"Quot.sound",
"propext"
],
"PreCore.Uni.sample_refuses": [],
"PreCore.Uni.codec_registry": [
"Quot.sound",
"propext"
],
"PreCore.ReflIO.save_load": [
"Classical.choice",
"Quot.sound",
"propext"
],
"PreCore.ReflIO.load_refuses": [
"Quot.sound",
"propext"
],
"PreCore.Wave.riff_size": [
"Quot.sound",
"propext"
],
"PreCore.Wave.calc_linear": [
"Quot.sound",
"propext"
],
"PreCore.Wave.valid_chunk_iff": [
"Classical.choice",
"Quot.sound",
"propext"
],
"PreCore.Wave.bits_of_format": [
"Quot.sound",
"propext"
],
"PreCore.FileInfo.path_split": [
"Classical.choice",
"Quot.sound",
"propext"
],
"PreCore.BinFile.readers_are_cursors": [
"Quot.sound",
"propext"
],
"PreCore.BinFile.reopen_violated": [
"propext"
],
"PreCore.BinFile.move_violated": [
"Quot.sound",
"propext"
],
"PreCore.BinFile.unopened_violated": [
"propext"
],
"PreCore.UnitTest.bang_parses": [
"Quot.sound",
"propext"
],
"PreCore.UnitTest.check_partial": [
"Classical.choice",
"Quot.sound",
"propext"
],
"PreCore.UnitTest.check_equal_violated": [
"propext"
],
"PreCore.UnitTest.compare_checks": [
"Classical.choice",
"Quot.sound",
"propext"
],
"PreCore.UnitTest.cmp_precedence_violated": [
"Quot.sound",
"propext"
],
"PreCore.UnitTest.cases_count": [
"Classical.choice",
"Quot.sound",
"propext"
],
"PreCore.UnitTest.cases_zero": [
"Quot.sound",
"propext"
],
"PreCore.UnitTest.cases_cancel_violated": [
"propext"
],
"PreCore.Element.elements_sound": [
"Classical.choice",
"Quot.sound",
"propext"
],
"PreCore.Element.elements_defined": [
"Classical.choice",
"Quot.sound",
"propext"
],
"PreCore.Element.elements_use": [
"Classical.choice",
"Quot.sound",
"propext"
],
"PreCore.Element.to_element": [
"Quot.sound",
"propext"
],
"PreCore.UnitTest.not_check": [
"propext"
],
"PreCore.StringView.find_behaviour_partial": [
"Quot.sound",
"propext"
],
"PreCore.StringView.find_char_partial": [
"Quot.sound",
"propext"
],
"PreCore.StringView.find_not_late_partial": [
"Quot.sound",
"propext"
],
"PreCore.StringView.find_end_violated": [
"propext"
],
"PreCore.StringView.find_first_char_violated": [
"propext"
],
"PreCore.StringView.rfind_violated": [
"propext"
],
"PreCore.StringView.rfind_char_partial": [
"Quot.sound",
"propext"
],
"PreCore.StringView.rfind_reversed": [
"Quot.sound",
"propext"
],
"PreCore.PrinterColour.colours_erase": [
"Quot.sound",
"propext"
],
"PreCore.PrinterColour.plain_sinks": [
"Quot.sound",
"propext"
],
"PreCore.PrinterColour.colours_shown": [
"Classical.choice",
"Quot.sound",
"propext"
],
"PreCore.PrinterColour.colours_own": [
"Quot.sound",
"propext"
],
"PreCore.PrinterColour.colour_fits": [
"Quot.sound",
"propext"
],
"PreCore.PrinterColour.colour_text_spec": [
"Classical.choice",
"Quot.sound",
"propext"
],
"PreCore.PrinterColour.restore_spec": [
"Classical.choice",
"Quot.sound",
"propext"
],
"PreCore.PrinterColour.colour_text_injective": [
"Classical.choice",
"Quot.sound",
"propext"
],
"PreCore.Max.suffix_text": [
"Classical.choice",
"Quot.sound",
"propext"
],
"PreCore.Max.suffix_order": [
"Classical.choice",
"Quot.sound",
"propext"
],
"PreCore.Max.suffix_again": [
"Quot.sound",
"propext"
],
"PreCore.Max.resize_spec": [
"Classical.choice",
"Quot.sound",
"propext"
],
"PreCore.Max.params_independent": [
"Quot.sound",
"propext"
],
"PreCore.Max.accessors_distinct": [
"propext"
],
"PreCore.Max.id_rule": [
"Classical.choice",
"Quot.sound",
"propext"
],
"PreCore.PrinterColour.flush_shows": [
"Classical.choice",
"Quot.sound",
"propext"
],
"PreCore.PrinterColour.info_colour_violated": [
"propext"
],
"PreCore.PrinterColour.colour_overflow_violated": [
"Quot.sound",
"propext"
],
"PreCore.Max.suffix_ambiguous_violated": [
"Quot.sound",
"propext"
],
"PreCore.Max.full_color_twice_violated": [
"Quot.sound",
"propext"
],
"PreCore.Max.delete_spec": [
"Classical.choice",
"Quot.sound",
"propext"
],
"PreCore.Max.delete_negative_violated": [
"Quot.sound",
"propext"
],
"PreCore.Block.bc5_blue_partial": [
"Classical.choice",
"Quot.sound",
"propext"
],
"PreCore.Block.bc5_blue_violated": [
"Classical.choice",
"Quot.sound",
"propext"
],
"PreCore.Block.bc5_blue_outside": [
"Classical.choice",
"Quot.sound",
"propext"
],
"PreCore.Block.bc5_blue_short_violated": [
"Quot.sound",
"propext"
],
"PreCore.Dds.bpp_dx10_partial": [
"Quot.sound",
"propext"
],
"PreCore.Dds.bpp_legacy_partial": [
"Classical.choice",
"Quot.sound",
"propext"
],
"PreCore.Dds.bpp_kept": [
"Quot.sound",
"propext"
],
"PreCore.Dds.isBC_iff": [
"Quot.sound",
"propext"
],
"PreCore.Dds.layout_blocks": [
"Classical.choice",
"Quot.sound",
"propext"
],
"PreCore.Dds.bpp_pairs_violated": [
"Quot.sound",
"propext"
],
"PreCore.Dds.bpp_palette_violated": [
"Quot.sound",
"propext"
],
"PreCore.Dds.bpp_uyvy_violated": [
"Quot.sound",
"propext"
],
"PreCore.Dds.typeless_violated": [
"Quot.sound",
"propext"
],
"PreCore.Block.simd_ends": [
"Classical.choice",
"Quot.sound",
"propext"
],
"PreCore.Block.simd_thirds_partial": [
"Classical.choice",
"Quot.sound",
"propext"
],
"PreCore.Block.simd_thirds_violated": [
"Classical.choice",
"Quot.sound",
"propext"
],
"PreCore.Block.simd_pixels_violated": [
"Classical.choice",
"Quot.sound",
"propext"
],
"PreCore.StringView.compare_spec": [
"Quot.sound",
"propext"
],
"PreCore.StringView.operators_total_order": [
"Quot.sound",
"propext"
],
"PreCore.StringView.operators_agree": [
"Classical.choice",
"Quot.sound",
"propext"
],
"PreCore.StringView.compare_parts": [
"Quot.sound",
"propext"
],
"PreCore.Vec.lanes_rounded": [
"Classical.choice",
"Quot.sound",
"propext"
],
"PreCore.Vec.dot_simd_accurate": [
"Classical.choice",
"Quot.sound",
"propext"
],
"PreCore.Vec.dot_accurate": [
"Classical.choice",
"Quot.sound",
"propext"
],
"PreCore.Vec.product_accurate": [
"Classical.choice",
"Quot.sound",
"propext"
],
"PreCore.Vec.identity_exact": [
"Classical.choice",
"Quot.sound",
"propext"
],
"PreCore.Vec.whole_numbers_exact": [
"Classical.choice",
"Quot.sound",
"propext"
],
"PreCore.Vec.lanes_rounded_small": [
"Classical.choice",
"Quot.sound",
"propext"
],
"PreCore.Vec.length_accurate": [
"Classical.choice",
"Quot.sound",
"propext"
],
"PreCore.Vec.normalize_accurate_partial": [
"Classical.choice",
"Quot.sound",
"propext"
],
"PreCore.Vec.normalize_unit_partial": [
"Classical.choice",
"Quot.sound",
"propext"
],
"PreCore.Vec.normalize_range_violated": [
"Classical.choice",
"Quot.sound",
"propext"
],
"PreCore.Vec.close_equal": [
"Classical.choice",
"Quot.sound",
"propext"
],
"PreCore.Vec.equal_nearly": [
"Classical.choice",
"Quot.sound",
"propext"
],
"PreCore.Vec.nan_unequal": [
"Classical.choice",
"Quot.sound",
"propext"
],
"PreCore.Vec.order_exact": [
"Classical.choice",
"Quot.sound",
"propext"
],
"PreCore.Vec.equal_symmetric_violated": [
"Quot.sound",
"propext"
],
"PreCore.Vec.ofQuat_accurate": [
"Classical.choice",
"Quot.sound",
"propext"
],
"PreCore.Vec.rotatePoint_accurate": [
"Classical.choice",
"Quot.sound",
"propext"
],
"PreCore.Uni.float32_exact": [
"Quot.sound",
"propext"
],
"PreCore.Uni.float16_exact": [
"Classical.choice",
"Quot.sound",
"propext"
],
"PreCore.Uni.float16_single_partial": [
"Classical.choice",
"Quot.sound",
"propext"
],
"PreCore.Uni.float16_single_violated": [
"Quot.sound",
"propext"
],
"PreCore.Uni.float11_exact_partial": [
"Classical.choice",
"Quot.sound",
"propext"
],
"PreCore.Uni.float10_exact_partial": [
"Classical.choice",
"Quot.sound",
"propext"
],
"PreCore.Uni.float10_violated": [
"Quot.sound",
"propext"
],
"PreCore.Uni.float11_subnormal_violated": [
"Quot.sound",
"propext"
],
"PreCore.SceneIter.loop_visits_lent": [
"Quot.sound",
"propext"
],
"PreCore.SceneIter.loop_visits_vector": [
"Quot.sound",
"propext"
],
"PreCore.SceneIter.loop_given_violated": [
"Quot.sound",
"propext"
],
"PreCore.SceneIter.loop_given_empty": [
"propext"
],
"PreCore.VectorText.text_is_components": [
"Classical.choice",
"Quot.sound",
"propext"
],
"PreCore.VectorText.text_injective": [
"Classical.choice",
"Quot.sound",
"propext"
],
"PreCore.VectorText.stream_is_components_partial": [
"Classical.choice",
"Quot.sound",
"propext"
],
"PreCore.VectorText.stream_bytes_violated": [
"Quot.sound",
"propext"
],
"PreCore.Rts.default_place": [
"propext"
],
"PreCore.Rts.place_mul": [
"Quot.sound",
"propext"
],
"PreCore.Rts.chain_partial": [
"Quot.sound",
"propext"
],
"PreCore.Rts.chain_default_violated": [
"Quot.sound",
"propext"
],
"PreCore.Rts.equal_iff_close": [
"Classical.choice",
"Quot.sound",
"propext"
],
"PreCore.Rts.nan_different": [
"Classical.choice",
"Quot.sound",
"propext"
],
"PreCore.Rts.tuple_order": [],
"PreCore.StringView.views_are_strings": [
"Quot.sound",
"propext"
],
"PreCore.StringView.views_stay_inside": [
"Classical.choice",
"Quot.sound",
"propext"
],
"PreCore.FloatTextProps.set_float_partial": [
"Classical.choice",
"Quot.sound",
"propext"
],
"PreCore.FloatTextProps.set_float_words": [
"Classical.choice",
"Quot.sound",
"propext"
],
"PreCore.FloatTextProps.set_float_sign_violated": [
"Classical.choice",
"Quot.sound",
"propext"
],
"PreCore.FloatTextProps.set_float_sign_witness_violated": [
"Classical.choice",
"Quot.sound",
"propext"
],
"PreCore.FloatTextProps.set_float_hex_partial": [
"Classical.choice",
"Quot.sound",
"propext"
],
"PreCore.StringView.find_first_of_correct": [
"Quot.sound",
"propext"
],
"PreCore.StringView.find_last_of_correct": [
"Classical.choice",
"Quot.sound",
"propext"
],
"PreCore.StringView.find_last_of_empty": [
"propext"
],
"PreCore.StringView.find_last_of_empty_violated": [
"Quot.sound",
"propext"
],
"PreCore.StringView.find_first_not_of_partial": [
"Quot.sound",
"propext"
],
"PreCore.StringView.find_last_not_of_partial": [
"Classical.choice",
"Quot.sound",
"propext"
],
"PreCore.StringView.find_not_of_violated": [
"propext"
],
"PreCore.StringView.find_first_not_of_empty_set": [
"Quot.sound",
"propext"
],
"PreCore.FloatTextProps.get_float_rounded": [
"Classical.choice",
"Quot.sound",
"propext"
],
"PreCore.FloatTextProps.set_get_short": [
"Classical.choice",
"Quot.sound",
"propext"
],
"PreCore.FloatTextProps.get_set_get_stable": [
"Classical.choice",
"Quot.sound",
"propext"
],
"PreCore.FloatTextProps.get_float_length": [
"Classical.choice",
"Quot.sound",
"propext"
],
"PreCore.FloatTextProps.float_survives_iff": [
"Classical.choice",
"Quot.sound",
"propext"
],
"PreCore.FloatTextProps.short_faithful": [
"Classical.choice",
"Quot.sound",
"propext"
],
"PreCore.FloatTextProps.float_text_lossy_violated": [
"Classical.choice",
"Quot.sound",
"propext"
],
"PreCore.FloatTextProps.float_subnormal_violated": [
"Classical.choice",
"Quot.sound",
"propext"
],
"PreCore.Vec.nan_lanes": [
"Classical.choice",
"Quot.sound",
"propext"
],
"PreCore.Vec.nan_spreads": [
"Classical.choice",
"Quot.sound",
"propext"
],
"PreCore.Vec.nan_product": [
"Classical.choice",
"Quot.sound",
"propext"
],
"PreCore.Vec.div_zero": [
"Classical.choice",
"Quot.sound",
"propext"
],
"PreCore.Vec.with_infinities": [
"Classical.choice",
"Quot.sound",
"propext"
],
"PreCore.Vec.order_line": [
"Classical.choice",
"Quot.sound",
"propext"
],
"PreCore.Vec.nan_spreads_small": [
"Classical.choice",
"Quot.sound",
"propext"
],
"PreCore.Vec.small_lanes": [
"Quot.sound",
"propext"
],
"PreCore.Vec.sqrt_special": [
"Quot.sound",
"propext"
],
"PreCore.TypeReg.registration_succeeds": [
"Quot.sound",
"propext"
],
"PreCore.TypeReg.last_registered": [
"Classical.choice",
"Quot.sound",
"propext"
],
"PreCore.TypeReg.registered_found_partial": [
"Classical.choice",
"Quot.sound",
"propext"
],
"PreCore.TypeReg.member_class_partial": [
"Classical.choice",
"Quot.sound",
"propext"
],
"PreCore.TypeReg.static_registration_partial": [
"Classical.choice",
"Quot.sound",
"propext"
],
"PreCore.TypeReg.plain_classes_violated": [
"Quot.sound",
"propext"
],
"PreCore.TypeReg.names_clash_violated": [
"Classical.choice",
"Quot.sound",
"propext"
],
"PreCore.TypeReg.static_registration_violated": [
"Quot.sound",
"propext"
],
"PreCore.PrinterWin.colour_shown": [
"Classical.choice",
"Quot.sound",
"propext"
],
"PreCore.PrinterWin.colour_visible": [
"propext"
],
"PreCore.PrinterWin.restore_violated": [
"Classical.choice",
"Quot.sound",
"propext"
],
"PreCore.UnitTestRun.comparisons_partial": [
"Classical.choice",
"Quot.sound",
"propext"
],
"PreCore.UnitTestRun.checks_partial": [
"Classical.choice",
"Quot.sound",
"propext"
],
"PreCore.UnitTestRun.function_result": [
"Classical.choice",
"Quot.sound",
"propext"
],
"PreCore.UnitTestRun.program_result_partial": [
"Classical.choice",
"Quot.sound",
"propext"
],
"PreCore.UnitTestRun.check_equality_violated": [
"Classical.choice",
"Quot.sound",
"propext"
],
"PreCore.UnitTestRun.loose_argument_violated": [
"Quot.sound",
"propext"
],
"PreCore.UnitTestRun.nan_checks_violated": [
"Classical.choice",
"Quot.sound",
"propext"
],
"PreCore.UnitTestRun.sum_violated": [
"propext"
],
"PreCore.FractionT.fraction_below": [
"propext"
],
"PreCore.FractionT.fraction_refused": [
"propext"
],
"PreCore.FractionT.fraction_agrees": [
"Quot.sound",
"propext"
],
"PreCore.FractionT.fraction_differs_violated": [
"propext"
],
"PreCore.ReflBin.load_frame": [
"Classical.choice",
"Quot.sound",
"propext"
],
"PreCore.ReflBin.load_in_object": [
"Classical.choice",
"Quot.sound",
"propext"
],
"PreCore.ReflBin.load_bound": [
"Quot.sound",
"propext"
],
"PreCore.ReflBin.load_layout_needed": [
"Quot.sound",
"propext"
],
"PreCore.ReflBin.registered_laid": [
"Classical.choice",
"Quot.sound",
"propext"
],
"PreCore.ReflXml.xml2_load_frame_partial": [
"Classical.choice",
"Quot.sound",
"propext"
],
"PreCore.ReflXml.xml2_index_violated": [
"Quot.sound",
"propext"
],
"PreCore.ReflXml.xml2_axis_violated": [
"Quot.sound",
"propext"
],
"PreCore.Zip.open_sound": [
"Classical.choice",
"Quot.sound",
"propext"
],
"PreCore.Zip.get_sound": [
"Classical.choice",
"Quot.sound",
"propext"
],
"PreCore.Zip.open_returns": [
"Classical.choice",
"Quot.sound",
"propext"
],
"PreCore.Zip.reads_independent_partial": [
"Classical.choice",
"Quot.sound",
"propext"
],
"PreCore.Zip.truncated_member_violated": [
"Quot.sound",
"propext"
],
"PreCore.Zip.large_member_violated": [
"Classical.choice",
"Quot.sound",
"propext"
],
"PreCore.StringView.substr_correct": [
"Quot.sound",
"propext"
],
"PreCore.StringView.substr_throws": [
"Quot.sound",
"propext"
],
"PreCore.StringView.copy_behaviour_partial": [
"Quot.sound",
"propext"
],
"PreCore.StringView.copy_overflow_violated": [
"Quot.sound",
"propext"
],
"PreCore.StringView.copy_default_violated": [
"Quot.sound",
"propext"
],
"PreCore.StringView.remove_correct": [
"propext"
],
"PreCore.StringView.remove_ub": [
"Quot.sound",
"propext"
],
"PreCore.ZipConc.concurrent_gets": [
"Classical.choice",
"Quot.sound",
"propext"
],
"PreCore.ZipConc.gets_progress": [
"Classical.choice",
"Quot.sound",
"propext"
],
"PreCore.ZipConc.gets_finish": [
"Classical.choice",
"Quot.sound",
"propext"
],
"PreCore.IntVec.int_lanes": [
"Quot.sound",
"propext"
],
"PreCore.IntVec.int_exact": [
"Classical.choice",
"Quot.sound",
"propext"
],
"PreCore.IntVec.int_wraps_partial": [
"Classical.choice",
"Quot.sound",
"propext"
],
"PreCore.IntVec.mul_u16_violated": [
"Classical.choice",
"Quot.sound",
"propext"
],
"PreCore.IntVec.i32_defined": [
"propext"
],
"PreCore.IntVec.int_div": [
"Classical.choice",
"Quot.sound",
"propext"
],
"PreCore.IntVec.int_bits": [
"Classical.choice",
"Quot.sound",
"propext"
],
"PreCore.IntVec.int_sign": [
"Classical.choice",
"Quot.sound",
"propext"
],
"PreCore.IntVec.int_shr": [
"Classical.choice",
"Quot.sound",
"propext"
],
"PreCore.IntVec.int_shl": [
"Classical.choice",
"Quot.sound",
"propext"
],
"PreCore.IntVec.int_shl_shr": [
"Classical.choice",
"Quot.sound",
"propext"
],
"PreCore.IntVec.int_neg_partial": [
"Classical.choice",
"Quot.sound",
"propext"
],
"PreCore.IntVec.neg_u16_violated": [
"Classical.choice",
"Quot.sound",
"propext"
],
"PreCore.IntVec.int_dot": [
"Classical.choice",
"Quot.sound",
"propext"
],
"PreCore.IntVec.int_length_partial": [
"Classical.choice",
"Quot.sound",
"propext"
],
"PreCore.IntVec.length8_violated": [
"Classical.choice",
"Quot.sound",
"propext"
],
"PreCore.IntVec.int_normalize": [
"Classical.choice",
"Quot.sound",
"propext"
],
"PreCore.IntVec.int_normalize_violated": [
"Classical.choice",
"Quot.sound",
"propext"
],
"PreCore.DirScanWin.attr_bits": [
"Quot.sound",
"propext"
],
"PreCore.DirScanWin.scanW_partial": [
"Classical.choice",
"Quot.sound",
"propext"
],
"PreCore.DirScanWin.scanW_ends": [
"Quot.sound",
"propext"
],
"PreCore.DirScanWin.first_missed_violated": [
"Classical.choice",
"Quot.sound",
"propext"
],
"PreCore.DirScanWin.fileTypeW_spec": [
"Quot.sound",
"propext"
],
"PreCore.DirScanWin.fileType_hosts_violated": [
"Quot.sound",
"propext"
],
"PreCore.Crypt.blowfish_modes": [
"Classical.choice",
"Quot.sound",
"propext"
],
"PreCore.Uni8.uprintf_plain": [
"Quot.sound",
"propext"
],
"PreCore.Uni8.uprintf_wide_partial": [
"Classical.choice",
"Quot.sound",
"propext"
],
"PreCore.Uni8.uprintf_violated": [
"propext"
],
"PreCore.Uni8.isHelp_iff": [
"Classical.choice",
"Quot.sound",
"propext"
],
"PreCore.ZipFile.files_are_cursors_partial": [
"Quot.sound",
"propext"
],
"PreCore.ZipFile.move_violated": [
"Quot.sound",
"propext"
],
"PreCore.ZipFile.move_shares_violated": [
"Quot.sound",
"propext"
],
"PreCore.ZipFile.not_elided_violated": [
"propext"
],
"PreCore.ReflIO.saved_inside": [
"Classical.choice",
"Quot.sound",
"propext"
],
"PreCore.ReflIO.inside_fits": [
"Classical.choice",
"Quot.sound",
"propext"
],
"PreCore.ReflIO.too_many_classes_violated": [
"Classical.choice",
"Quot.sound",
"propext"
],
"PreCore.ReflIO.too_many_names_violated": [
"Classical.choice",
"Quot.sound",
"propext"
],
"PreCore.ReflIO.names_outside_violated": [
"Classical.choice",
"Quot.sound",
"propext"
],
"PreCore.ReflIO.alias_hashes_misplaced_violated": [
"propext"
],
"PreCore.PyLife.kept_defined_partial": [
"Quot.sound",
"propext"
],
"PreCore.PyLife.lent_defined": [
"Quot.sound",
"propext"
],
"PreCore.PyLife.owned_deleted_once": [
"Quot.sound",
"propext"
],
"PreCore.PyLife.given_owned": [
"propext"
],
"PreCore.PyLife.lender_not_kept_violated": [
"Quot.sound",
"propext"
],
"PreCore.Vec.missing_component_partial": [
"Classical.choice",
"Quot.sound",
"propext"
],
"PreCore.Vec.missing_too_long": [
"Classical.choice",
"Quot.sound",
"propext"
],
"PreCore.Vec.missing_component_violated": [
"Classical.choice",
"Quot.sound",
"propext"
],
"PreCore.Vec.toQuat_accurate": [
"Classical.choice",
"Quot.sound",
"propext"
],
"PreCore.Vec.quat_matrix_quat": [
"Classical.choice",
"Quot.sound",
"propext"
],
"PreCore.FileInfo.folder_name_ext_partial": [
"Classical.choice",
"Quot.sound",
"propext"
],
"PreCore.FileInfo.dot_in_folder_violated": [
"Quot.sound",
"propext"
],
"PreCore.FileInfo.reload_empty_violated": [],
"PreCore.Vec.decompose_accurate": [
"Classical.choice",
"Quot.sound",
"propext"
],
"PreCore.Vec.compose_accurate": [
"Classical.choice",
"Quot.sound",
"propext"
],
"PreCore.Vec.compose_decompose_accurate": [
"Classical.choice",
"Quot.sound",
"propext"
],
"PreCore.Vec.inverse_accurate": [
"Classical.choice",
"Quot.sound",
"propext"
],
"PreCore.Vec.inverse_last_column": [
"Classical.choice",
"Quot.sound",
"propext"
],
"PreCore.Vec.inverse_translation_accurate": [
"Classical.choice",
"Quot.sound",
"propext"
],
"PreCore.Vec.inverse_product_accurate": [
"Classical.choice",
"Quot.sound",
"propext"
],
"PreCore.Vec.inverse_product_border": [
"Classical.choice",
"Quot.sound",
"propext"
],
"PreCore.Vec.inverse_identity_partial": [
"Classical.choice",
"Quot.sound",
"propext"
],
"PreCore.Vec.inverse_small_row": [
"Classical.choice",
"Quot.sound",
"propext"
],
"PreCore.Vec.inverse_identity_violated": [
"Classical.choice",
"Quot.sound",
"propext"
],
"PreCore.VectorText.float_text_is_components": [
"Classical.choice",
"Quot.sound",
"propext"
],
"PreCore.VectorText.float_stream_is_components": [
"Classical.choice",
"Quot.sound",
"propext"
],
"PreCore.VectorText.float_text_specials": [
"Classical.choice",
"Quot.sound",
"propext"
],
"PreCore.VectorText.float_text_apart": [
"Classical.choice",
"Quot.sound",
"propext"
],
"PreCore.VectorText.float_text_lossy_violated": [
"Quot.sound",
"propext"
],
"PreCore.XmlError.messages_say": [
"Quot.sound",
"propext"
],
"PreCore.XmlError.offset_right_iff": [
"Classical.choice",
"Quot.sound",
"propext"
],
"PreCore.XmlError.message_identifies": [
"Classical.choice",
"Quot.sound",
"propext"
],
"PreCore.XmlError.offset_violated": [
"Classical.choice",
"Quot.sound",
"propext"
],
"PreCore.PyInit.types_registered": [
"Classical.choice",
"Quot.sound",
"propext"
],
"PreCore.PyInit.entries": [
"propext"
],
"PreCore.PyInit.refs_exact": [
"Classical.choice",
"Quot.sound",
"propext"
],
"PreCore.PyInit.refs_leaked_violated": [
"propext"
],
"PreCore.PyInit.failure_silent": [
"Quot.sound",
"propext"
],
"PreCore.PyInit.names_reachable_violated": [
"Quot.sound",
"propext"
],
"PreCore.FileInfo.explode_join": [
"Classical.choice",
"Quot.sound",
"propext"
],
"PreCore.FileInfo.explode_empty_ub": [
"propext"
],
"PreCore.Stream.script_roundtrip": [
"Classical.choice",
"Quot.sound",
"propext"
],
"PreCore.Stream.script_frame": [
"Classical.choice",
"Quot.sound",
"propext"
],
"PreCore.Stream.scalar_image": [
"Quot.sound",
"propext"
],
"PreCore.Stream.counted_prefix": [
"Classical.choice",
"Quot.sound",
"propext"
],
"PreCore.Stream.lambda_roundtrip": [
"Classical.choice",
"Quot.sound",
"propext"
],
"PreCore.Stream.readString_terminates": [
"Quot.sound",
"propext"
],
"PreCore.Stream.readString_failed_violated": [
"Quot.sound",
"propext"
],
"PreCore.Stream.push_pop_partial": [
"Quot.sound",
"propext"
],
"PreCore.Stream.pop_after_eof_violated": [
"Quot.sound",
"propext"
],
"PreCore.Stream.nested_push_violated": [
"Quot.sound",
"propext"
],
"PreCore.Stream.tell_seek": [
"Quot.sound",
"propext"
],
"PreCore.Stream.origin_laws": [
"Quot.sound",
"propext"
],
"PreCore.Stream.seek_tell": [
"Quot.sound",
"propext"
],
"PreCore.Stream.getSize_spec": [
"Quot.sound",
"propext"
],
"PreCore.Stream.padding_lands": [
"Classical.choice",
"Quot.sound",
"propext"
],
"PreCore.Supercore.getPadding_spec": [
"Classical.choice",
"Quot.sound",
"propext"
],
"PreCore.Supercore.isPow2_iff": [
"Quot.sound",
"propext"
],
"PreCore.Supercore.skipStart_spec": [
"Quot.sound",
"propext"
],
"PreCore.Supercore.skipEnd_spec": [
"Quot.sound",
"propext"
],
"PreCore.Supercore.trim_spec": [
"Quot.sound",
"propext"
],
"PreCore.Supercore.trim_overread_violated": [
"Quot.sound",
"propext"
],
"PreCore.Refl.set_signed_partial": [
"Classical.choice",
"Quot.sound",
"propext"
],
"PreCore.Refl.set_unsigned_correct": [
"Classical.choice",
"Quot.sound",
"propext"
],
"PreCore.Refl.set_signed_violated": [
"Classical.choice",
"Quot.sound",
"propext"
],
"PreCore.Refl.int_roundtrip": [
"Classical.choice",
"Quot.sound",
"propext"
],
"PreCore.Refl.bool_roundtrip": [
"Classical.choice",
"Quot.sound",
"propext"
],
"PreCore.Refl.bool_invalid_violated": [
"Quot.sound",
"propext"
],
"PreCore.Refl.frame_partial": [
"Quot.sound",
"propext"
],
"PreCore.Refl.frame_lists_partial": [
"Quot.sound",
"propext"
],
"PreCore.Refl.element_frame_partial": [
"Quot.sound",
"propext"
],
"PreCore.Refl.typed_frame": [
"Quot.sound",
"propext"
],
"PreCore.Refl.array_overrun_violated": [
"Quot.sound",
"propext"
],
"PreCore.Refl.element_overrun_violated": [
"Quot.sound",
"propext"
],
"PreCore.Refl.component_check_violated": [
"Quot.sound",
"propext"
],
"PreCore.Refl.enum_roundtrip_partial": [
"Classical.choice",
"Quot.sound",
"propext"
],
"PreCore.Refl.enum_set_padded": [
"Classical.choice",
"Quot.sound",
"propext"
],
"PreCore.Refl.enum_negative_violated": [
"Classical.choice",
"Quot.sound",
"propext"
],
"PreCore.Refl.flag_bit_violated": [
"Quot.sound",
"propext"
],
"PreCore.Refl.list_assign_partial": [
"Classical.choice",
"Quot.sound",
"propext"
],
"PreCore.Refl.quoted_items_violated": [
"Quot.sound",
"propext"
],
"PreCore.Refl.short_list_violated": [
"Quot.sound",
"propext"
],
"PreCore.ReflBin.bin_roundtrip_partial": [
"Classical.choice",
"Quot.sound",
"propext"
],
"PreCore.ReflBin.bin_int64_violated": [
"Quot.sound",
"propext"
],
"PreCore.ReflBin.bin_nested_diverges": [
"Quot.sound",
"propext"
],
"PreCore.ReflBin.bin_array_of_arrays_violated": [
"Quot.sound",
"propext"
],
"PreCore.ReflBin.load_class_mismatch": [
"Classical.choice",
"Quot.sound",
"propext"
],
"PreCore.ReflBin.load_count_mismatch": [
"Classical.choice",
"Quot.sound",
"propext"
],
"PreCore.ReflBin.load_items": [
"Classical.choice",
"Quot.sound",
"propext"
],
"PreCore.ReflBin.load_other_version": [
"Classical.choice",
"Quot.sound",
"propext"
],
"PreCore.ReflBin.load_error_lost_violated": [
"Quot.sound",
"propext"
],
"PreCore.Threads.queue_safe": [
"Classical.choice",
"Quot.sound",
"propext"
],
"PreCore.Threads.queue_complete": [
"Classical.choice",
"Quot.sound",
"propext"
],
"PreCore.Threads.queue_terminates_partial": [
"Classical.choice",
"Quot.sound",
"propext"
],
"PreCore.Threads.queue_zero_hw_violated": [
"Quot.sound",
"propext"
],
"PreCore.Alloc.linked_partial": [
"Classical.choice",
"Quot.sound",
"propext"
],
"PreCore.Alloc.owned_sound": [
"Classical.choice",
"Quot.sound",
"propext"
],
"PreCore.Alloc.deleter_foreign": [
"Quot.sound",
"propext"
],
"PreCore.Alloc.deleter_owned": [
"Classical.choice",
"Quot.sound",
"propext"
],
"PreCore.Alloc.grow_shares_violated": [
"Quot.sound",
"propext"
],
"PreCore.Alloc.grow_frees_foreign_violated": [
"Quot.sound",
"propext"
],
"PreCore.Pointer.fixup64_resolves": [
"Quot.sound",
"propext"
],
"PreCore.Pointer.fixup64_forced": [
"Quot.sound",
"propext"
],
"PreCore.Pointer.fixup32_forced": [
"Classical.choice",
"Quot.sound",
"propext"
],
"PreCore.Pointer.fixup64_again": [
"Quot.sound",
"propext"
],
"PreCore.Pointer.fixup32_again": [
"Quot.sound",
"propext"
],
"PreCore.Pointer.fixAll64_history": [
"Quot.sound",
"propext"
],
"PreCore.Pointer.fixAll32_history": [
"Quot.sound",
"propext"
],
"PreCore.Pointer.assign32_resolves": [
"Classical.choice",
"Quot.sound",
"propext"
],
"PreCore.Pointer.fixup32_resolves": [
"Classical.choice",
"Quot.sound",
"propext"
],
"PreCore.Pointer.fixup32_null": [
"propext"
],
"PreCore.Pointer.fixup32_far_violated": [
"propext"
],
"PreCore.Pointer.two_threads_violated": [],
"PreCore.Pointer.stale_list_violated": [
"propext"
],
"PreCore.Zip.empty_member_violated": [
"Classical.choice",
"Quot.sound",
"propext"
],
"PreCore.Zip.streamed_member_violated": [
"Quot.sound",
"propext"
],
"PreCore.Zip.open_never_returns_violated": [
"Quot.sound",
"propext"
],
"PreCore.Morton.addr_bits": [
"Classical.choice",
"Quot.sound",
"propext"
],
"PreCore.Morton.morton_injective": [
"Classical.choice",
"Quot.sound",
"propext"
],
"PreCore.Morton.morton_bijective_partial": [
"Classical.choice",
"Quot.sound",
"propext"
],
"PreCore.Morton.tall_violated": [
"Classical.choice",
"Quot.sound",
"propext"
],
"PreCore.Morton.small_rectangle_violated": [
"Classical.choice",
"Quot.sound",
"propext"
],
"PreCore.Block.bc4_decodes": [
"Classical.choice",
"Quot.sound",
"propext"
],
"PreCore.Block.bc5_decodes": [
"Classical.choice",
"Quot.sound",
"propext"
],
"PreCore.Block.bc5GA_decodes": [
"Classical.choice",
"Quot.sound",
"propext"
],
"PreCore.Block.bc3_decodes": [
"Classical.choice",
"Quot.sound",
"propext"
],
"PreCore.Block.bc2_decodes": [
"Classical.choice",
"Quot.sound",
"propext"
],
"PreCore.Block.bc1_decodes": [
"Classical.choice",
"Quot.sound",
"propext"
],
"PreCore.Block.texel_inside": [
"Quot.sound",
"propext"
],
"PreCore.Dds.mips_tile": [
"Quot.sound",
"propext"
],
"PreCore.Dds.bytesBefore_next": [
"propext"
],
"PreCore.Dds.block_level_partial": [
"Quot.sound",
"propext"
],
"PreCore.Dds.block_square_pow2": [
"Classical.choice",
"Quot.sound",
"propext"
],
"PreCore.Dds.block_level_violated": [
"Quot.sound",
"propext"
],
"PreCore.Dds.block_flat_violated": [],
"PreCore.Dds.empty_level_violated": [
"Quot.sound",
"propext"
],
"PreCore.Dds.large_level_violated": [
"Quot.sound",
"propext"
],
"PreCore.Dds.many_mips_violated": [
"Quot.sound",
"propext"
],
"PreCore.Dds.numMipmaps_spec": [
"Classical.choice",
"Quot.sound",
"propext"
],
"PreCore.Dds.computeBPP_dx10": [
"Quot.sound",
"propext"
],
"PreCore.Dds.legacy_roundtrip": [
"Quot.sound",
"propext"
],
"PreCore.Dds.forced_roundtrip": [
"Quot.sound",
"propext"
],
"PreCore.Dds.forced_representable": [
"Quot.sound",
"propext"
],
"PreCore.Dds.legacy_bpp": [
"Quot.sound",
"propext"
],
"PreCore.Dds.fourcc_roundtrip_partial": [
"Quot.sound",
"propext"
],
"PreCore.Dds.stale_alpha_violated": [
"Quot.sound",
"propext"
],
"PreCore.Uni.noFrac_exact": [
"Classical.choice",
"Quot.sound",
"propext"
],
"PreCore.Uni.sample_uint_partial": [
"Classical.choice",
"Quot.sound",
"propext"
],
"PreCore.Uni.sample_int_partial": [
"Classical.choice",
"Quot.sound",
"propext"
],
"PreCore.Uni.uint_reads_past_violated": [
"Quot.sound",
"propext"
],
"PreCore.Uni.norm_reads_past_violated": [
"Quot.sound",
"propext"
],
"PreCore.Uni.sample_past_end_violated": [
"Classical.choice",
"Quot.sound",
"propext"
],
"PreCore.Uni.noFrac_leaks": [
"Classical.choice",
"Quot.sound",
"propext"
],
"PreCore.EsFloat.toVector4_exact": [
"Classical.choice",
"Quot.sound",
"propext"
],
"PreCore.EsFloat.half_toVector4_exact": [
"Classical.choice",
"Quot.sound",
"propext"
],
"PreCore.EsFloat.toFloat_exact": [
"Classical.choice",
"Quot.sound",
"propext"
],
"PreCore.EsFloat.half_toFloat_exact_partial": [
"Classical.choice",
"Quot.sound",
"propext"
],
"PreCore.EsFloat.half_toFloat_violated": [
"Quot.sound",
"propext"
],
"PreCore.EsFloat.half_negative_zero_violated": [
"Quot.sound",
"propext"
],
"PreCore.EsFloat.toVector4_subnormal_violated": [
"Classical.choice",
"Quot.sound",
"propext"
],
"PreCore.EsFloat.toVector4_nan_violated": [
"Classical.choice",
"Quot.sound",
"propext"
],
"PreCore.Vec.toMatrix_ops": [
"Classical.choice",
"Quot.sound",
"propext"
],
"PreCore.Vec.matrix_laws": [
"Classical.choice",
"Quot.sound",
"propext"
],
"PreCore.Vec.transpose_part": [
"Classical.choice",
"Quot.sound",
"propext"
],
"PreCore.Vec.transpose_involutive_partial": [
"propext"
],
"PreCore.Vec.transpose_violated": [
"propext"
],
"PreCore.Vec.rotatePoint_conj": [
"Quot.sound",
"propext"
],
"PreCore.Vec.rotatePoint_violated": [
"Classical.choice",
"Quot.sound",
"propext"
],
"PreCore.Vec.ofQuat_mul": [
"Classical.choice",
"Quot.sound",
"propext"
],
"PreCore.Vec.ofQuat_orthogonal": [
"Classical.choice",
"Quot.sound",
"propext"
],
"PreCore.Vec.toQuat_ofQuat": [
"Classical.choice",
"Quot.sound",
"propext"
],
"PreCore.Vec.fromQuat_toQuat": [
"Classical.choice",
"Quot.sound",
"propext"
],
"PreCore.Vec.compose_decompose": [
"Classical.choice",
"Quot.sound",
"propext"
],
"PreCore.Vec.decompose_compose": [
"Classical.choice",
"Quot.sound",
"propext"
],
"PreCore.Vec.decompose_spec": [
"Classical.choice",
"Quot.sound",
"propext"
],
"PreCore.Vec.decompose_mirror": [
"Classical.choice",
"Quot.sound",
"propext"
],
"PreCore.Vec.epsF_nearest": [
"Classical.choice",
"Quot.sound",
"propext"
],
"PreCore.Vec.inverse_product": [
"Classical.choice",
"Quot.sound",
"propext"
],
"PreCore.Vec.inverse_iff": [
"Classical.choice",
"Quot.sound",
"propext"
],
"PreCore.Vec.inverse_partial": [
"Classical.choice",
"Quot.sound",
"propext"
],
"PreCore.Vec.inverse_translation_violated": [
"Classical.choice",
"Quot.sound",
"propext"
],
"PreCore.Vec.inverse_small_violated": [
"Classical.choice",
"Quot.sound",
"propext"
],
"PreCore.DirScan.scan_partial": [
"Classical.choice",
"Quot.sound",
"propext"
],
"PreCore.DirScan.path_inj": [
"propext"
],
"PreCore.DirScan.quoted_dir_violated": [
"propext"
],
"PreCore.DirScan.backslash_dir_violated": [
"propext"
],
"PreCore.DirScan.scan_ends": [
"Quot.sound",
"propext"
],
"PreCore.Printer.printer_memory": [
"Classical.choice",
"Quot.sound",
"propext"
],
"PreCore.Printer.flushAll_stale_violated": [
"Quot.sound",
"propext"
],
"PreCore.Printer.nul_text_violated": [
"Quot.sound",
"propext"
],
"PreCore.VirtualIter.forEach_all": [
"Quot.sound",
"propext"
],
"PreCore.VirtualIter.forEach_vector": [
"Quot.sound",
"propext"
],
"PreCore.VirtualIter.explicit_position_violated": [],
"PreCore.VirtualIter.explicit_position": [
"Quot.sound",
"propext"
],
"PreCore.Refl.lookup_correct": [
"Quot.sound",
"propext"
],
"PreCore.Refl.enum_registration_partial": [
"Classical.choice",
"Quot.sound",
"propext"
],
"PreCore.Refl.enum_init_violated": [
"Classical.choice",
"Quot.sound",
"propext"
],
"PreCore.Refl.bitmember_partial": [
"Classical.choice",
"Quot.sound",
"propext"
],
"PreCore.Refl.bitmember_print": [
"Classical.choice",
"Quot.sound",
"propext"
],
"PreCore.Refl.bitmember_signed_violated": [
"Classical.choice",
"Quot.sound",
"propext"
],
"PreCore.Refl.bitmember_range_violated": [
"Quot.sound",
"propext"
],
"PreCore.Refl.bitmember_invalid_violated": [
"Quot.sound",
"propext"
],
"PreCore.ReflIO.save_load_partial": [
"Classical.choice",
"Quot.sound",
"propext"
],
"PreCore.ReflIO.alias_hashes_lost_violated": [
"Classical.choice",
"Quot.sound",
"propext"
],
"PreCore.ReflIO.save_behind_data_violated": [
"Quot.sound",
"propext"
],
"PreCore.ReflIO.loadMore_empty": [
"Quot.sound",
"propext"
],
"PreCore.ReflIO.load_again_violated": [
"Quot.sound",
"propext"
],
"PreCore.Wave.next_position": [
"Classical.choice",
"Quot.sound",
"propext"
],
"PreCore.Wave.next_violated": [
"Classical.choice",
"Quot.sound",
"propext"
],
"PreCore.Wave.walk_corrected": [
"Classical.choice",
"Quot.sound",
"propext"
],
"PreCore.Wave.calc_adpcm_violated": [
"propext"
],
"PreCore.Vec.lanes2": [],
"PreCore.Vec.lanes3": [],
"PreCore.Vec.lanes4_partial": [],
"PreCore.Vec.normalize2_spec": [
"Classical.choice",
"Quot.sound",
"propext"
],
"PreCore.Vec.normalize3_spec": [
"Classical.choice",
"Quot.sound",
"propext"
],
"PreCore.Vec.normalize4_spec": [
"Classical.choice",
"Quot.sound",
"propext"
],
"PreCore.Vec.orAssign_violated": [
"Quot.sound",
"propext"
],
"PreCore.Vec.mk4_lanes": [],
"PreCore.Vec.get_bounds": [
"propext"
],
"PreCore.Vec.shift_lanes": [
"Classical.choice",
"Quot.sound",
"propext"
],
"PreCore.Vec.not_lanes": [
"Classical.choice",
"Quot.sound",
"propext"
],
"PreCore.Vec.toFlt_signed": [],
"PreCore.Vec.toFlt_unsigned_violated": [
"Quot.sound",
"propext"
],
"PreCore.Vec.intEq_iff": [
"propext"
],
"PreCore.Vec.isSymetrical_iff": [
"Quot.sound",
"propext"
],
"PreCore.Vec.swapEndian_lanes": [
"Quot.sound",
"propext"
],
"PreCore.Vec.dot_sum": [
"Quot.sound",
"propext"
],
"PreCore.Vec.dot_comm": [
"propext"
],
"PreCore.Vec.dpPs_comm_any": [
"propext"
],
"PreCore.Vec.dot_bilinear": [
"propext"
],
"PreCore.Vec.cross_laws": [
"Quot.sound",
"propext"
],
"PreCore.Vec.simd_cross": [
"propext"
],
"PreCore.Vec.simd_cross_laws": [
"Quot.sound",
"propext"
],
"PreCore.Vec.neg_add": [
"propext"
],
"PreCore.Vec.qConjugate_spec": [
"propext"
],
"PreCore.Vec.fltEq_iff": [
"Classical.choice",
"Quot.sound",
"propext"
],
"PreCore.Vec.simdLt_iff": [
"Quot.sound",
"propext"
],
"PreCore.Vec.simdLe_partial": [
"Classical.choice",
"Quot.sound",
"propext"
],
"PreCore.Vec.simdLe_violated": [
"Classical.choice",
"Quot.sound",
"propext"
],
"PreCore.Vec.simdIsSymetrical_iff": [
"Classical.choice",
"Quot.sound",
"propext"
],
"PreCore.Vec.simdIsSymetrical_violated": [
"Classical.choice",
"Quot.sound",
"propext"
],
"PreCore.Vec.simdSign_iff": [
"Classical.choice",
"Quot.sound",
"propext"
],
"PreCore.Vec.simdNormalized_spec": [
"Classical.choice",
"Quot.sound",
"propext"
],
"PreCore.Vec.qComputeElement_partial": [
"Classical.choice",
"Quot.sound",
"propext"
],
"PreCore.Vec.qComputeElement_violated": [
"Classical.choice",
"Quot.sound",
"propext"
],
"PreCore.Crypt.keyEntry_packs_partial": [
"Classical.choice",
"Quot.sound",
"propext"
],
"PreCore.Crypt.blowfish_key_bytes_ignored": [
"Classical.choice",
"Quot.sound",
"propext"
],
"PreCore.Crypt.blowfish_empty_key": [
"Quot.sound",
"propext"
],
"PreCore.Jenkins.jenHashCannon_one_char": [
"Quot.sound",
"propext"
],
"PreCore.Jenkins.jenHash_one_char_violated": [
"Quot.sound",
"propext"
],
"PreCore.Supercore.fourCC_bytes_partial": [
"Classical.choice",
"Quot.sound",
"propext"
],
"PreCore.Supercore.fourCC_violated": [
"Classical.choice",
"Quot.sound",
"propext"
],
"PreCore.Supercore.atoh_partial": [
"propext"
],
"PreCore.Supercore.atoh_violated": [
"Quot.sound",
"propext"
],
"PreCore.Dds.masks_partial": [
"Quot.sound",
"propext"
],
"PreCore.Dds.masks_violated": [
"Quot.sound",
"propext"
],
"PreCore.EsFloat.half_round_trip_partial": [
"Classical.choice",
"Quot.sound",
"propext"
],
"PreCore.EsFloat.half_fromFloat_round_trip_partial": [
"Classical.choice",
"Quot.sound",
"propext"
],
"PreCore.EsFloat.half_encode_below_half_violated": [
"Classical.choice",
"Quot.sound",
"propext"
],
"PreCore.EsFloat.half_encode_violated": [
"Quot.sound",
"propext"
],
"PreCore.EsFloat.half_fromFloat_violated": [
"Quot.sound",
"propext"
],
"PreCore.Uni.unorm_value": [
"Classical.choice",
"Quot.sound",
"propext"
],
"PreCore.Uni.unorm_normalised": [
"Classical.choice",
"Quot.sound",
"propext"
],
"PreCore.Uni.norm_value": [
"Classical.choice",
"Quot.sound",
"propext"
],
"PreCore.Uni.norm_normalised": [
"Classical.choice",
"Quot.sound",
"propext"
],
"PreCore.Uni.normMag_mono": [
"Classical.choice",
"Quot.sound",
"propext"
],
"PreCore.Uni.normMag_ends": [
"propext"
],
"PreCore.Uni.normMag_range": [
"Classical.choice",
"Quot.sound",
"propext"
],
"PreCore.Uni.norm_min_violated": [
"Quot.sound",
"propext"
],
"PreCore.Uni.unorm_red_violated": [
"Classical.choice",
"Quot.sound",
"propext"
],
"PreCore.Uni.unorm_blue_violated": [
"Quot.sound",
"propext"
],
"PreCore.Crypt.setKey_textbook_partial": [
"Classical.choice",
"Quot.sound",
"propext"
],
"PreCore.Crypt.Pi.blowfish_published_partial": [
"Classical.choice",
"Quot.sound",
"propext"
],
"PreCore.Jenkins.hash3_lookup3_partial": [
"Classical.choice",
"Quot.sound",
"propext"
],
"PreCore.Jenkins.hash3_lookup3_violated": [
"Quot.sound",
"propext"
],
"PreCore.Refl.flag_get_partial": [
"Classical.choice",
"Quot.sound",
"propext"
],
"PreCore.Refl.flag_elem_get_partial": [
"Classical.choice",
"Quot.sound",
"propext"
],
"PreCore.Refl.flag31_violated": [
"Classical.choice",
"Quot.sound",
"propext"
],
"PreCore.Refl.flag31_any_violated": [
"Classical.choice",
"Quot.sound",
"propext"
],
"PreCore.Refl.bool_set_text": [
"Classical.choice",
"Quot.sound",
"propext"
],
"PreCore.ReflXml.xml_roundtrip_partial": [
"Classical.choice",
"Quot.sound",
"propext"
],
"PreCore.ReflXml.hash_names": [
"Classical.choice",
"Quot.sound",
"propext"
],
"PreCore.ReflXml.xml_leading_blank_violated": [
"Classical.choice",
"Quot.sound",
"propext"
],
"PreCore.ReflXml.xml_markup_violated": [
"Classical.choice",
"Quot.sound",
"propext"
],
"PreCore.ReflXml.xml_signed_bits_violated": [
"Classical.choice",
"Quot.sound",
"propext"
],
"PreCore.FloatTextProps.xml_float_roundtrip": [
"Classical.choice",
"Quot.sound",
"propext"
],
"PreCore.FloatTextProps.xml_float_tree_roundtrip": [
"Classical.choice",
"Quot.sound",
"propext"
],
"PreCore.FloatTextProps.xml_float_lossy_violated": [
"Classical.choice",
"Quot.sound",
"propext"
],
"PreCore.ReflXml.xml_load_frame": [
"Classical.choice",
"Quot.sound",
"propext"
],
"PreCore.ReflXml.xml_load_frame_lists_partial": [
"Classical.choice",
"Quot.sound",
"propext"
],
"PreCore.ReflXml.xml_load_ignores": [
"Quot.sound",
"propext"
],
"PreCore.ReflXml.xml_load_defined_partial": [
"Quot.sound",
"propext"
],
"PreCore.ReflXml.xml_load_item_violated": [
"Classical.choice",
"Quot.sound",
"propext"
],
"PreCore.ReflXml.xml2_roundtrip_partial": [
"Classical.choice",
"Quot.sound",
"propext"
],
"PreCore.ReflXml.xml2_unknown_child_violated": [
"Quot.sound",
"propext"
],
"PreCore.ReflXml.xml2_byte_vectors_violated": [
"Classical.choice",
"Quot.sound",
"propext"
],
"PreCore.ReflXml.xml2_nameless_list_violated": [
"Classical.choice",
"Quot.sound",
"propext"
],
"PreCore.FloatTextProps.xml2_float_roundtrip": [
"Classical.choice",
"Quot.sound",
"propext"
],
"PreCore.Refl.macro_loop_partial": [
"Classical.choice",
"Quot.sound",
"propext"
],
"PreCore.Refl.macro_loop_violated": [
"Quot.sound",
"propext"
],
"PreCore.Refl.table_describes_partial": [
"Classical.choice",
"Quot.sound",
"propext"
],
"PreCore.Refl.members_independent_partial": [
"Classical.choice",
"Quot.sound",
"propext"
],
"PreCore.Refl.registered_ids": [
"Quot.sound",
"propext"
],
"PreCore.Refl.getByHash_eq": [
"Classical.choice",
"Quot.sound",
"propext"
],
"PreCore.Refl.table_limits_violated": [
"Quot.sound",
"propext"
],
"PreCore.Refl.nested_array_violated": [
"Classical.choice",
"Quot.sound",
"propext"
],
"PreCore.Refl.typed_roundtrip_partial": [
"Classical.choice",
"Quot.sound",
"propext"
],
"PreCore.Refl.typed_first_violated": [
"propext"
],
"PreCore.Refl.typed_overflow_violated": [
"Classical.choice",
"Quot.sound",
"propext"
],
"PreCore.Refl.pair_varnames": [
"Classical.choice",
"Quot.sound",
"propext"
],
"PreCore.Refl.pair_null_violated": [
"Classical.choice",
"Quot.sound",
"propext"
],
"PreCore.Refl.bitfield_by_name_partial": [
"Classical.choice",
"Quot.sound",
"propext"
],
"PreCore.Refl.bitfield_order_violated": [
"Classical.choice",
"Quot.sound",
"propext"
],
"PreCore.Mkdirs.mkdirs_plain": [
"Classical.choice",
"Quot.sound",
"propext"
],
"PreCore.Mkdirs.mkdirs_base_without_slash_violated": [],
"PreCore.Mkdirs.mkdirs_missing_base_violated": [
"propext"
],
"PreCore.Mkdirs.fileType_partial": [
"Quot.sound",
"propext"
],
"PreCore.Mkdirs.fileType_error": [
"Quot.sound",
"propext"
],
"PreCore.Mkdirs.fileType_socket_violated": [
"Quot.sound",
"propext"
],
"PreCore.Except.header_alnum": [
"Quot.sound",
"propext"
],
"PreCore.Except.header_hex": [
"Quot.sound",
"propext"
],
"PreCore.Except.header_inj_partial": [
"Classical.choice",
"Quot.sound",
"propext"
],
"PreCore.Except.header_zero_violated": [
"Quot.sound",
"propext"
],
"PreCore.Except.header_wide_violated": [
"Classical.choice",
"Quot.sound",
"propext"
],
"PreCore.ZipRec.zip_write": [
"Quot.sound",
"propext"
],
"PreCore.ZipRec.zip_read": [
"Classical.choice",
"Quot.sound",
"propext"
],
"PreCore.ZipRec.zip_round_trip": [
"Classical.choice",
"Quot.sound",
"propext"
],
"PreCore.ZipRec.zip_short": [
"Quot.sound",
"propext"
],
"PreCore.Uni8.wide_roundtrip_partial": [
"Classical.choice",
"Quot.sound",
"propext"
],
"PreCore.Uni8.wide_roundtrip_violated": [
"Classical.choice",
"Quot.sound",
"propext"
],
"PreCore.Uni8.empty_violated": [
"propext"
],
"PreCore.Uni8.malformed_refused": [
"Classical.choice",
"Quot.sound",
"propext"
],
"PreCore.Py.py_for_partial": [
"Quot.sound",
"propext"
],
"PreCore.Py.py_refcount_violated": [
"Quot.sound",
"propext"
],
"PreCore.Py.py_nested_violated": [
"Quot.sound",
"propext"
],
"PreCore.Py.py_subscript": [
"propext"
],
"PreCore.Py.py_subscript_violated": [
"propext"
],
"PreCore.Py.py_enum": [
"Classical.choice",
"Quot.sound",
"propext"
],
"PreCore.Py.py_enum_unknown_violated": [
"Quot.sound",
"propext"
],
"PreCore.Settings.help_lists_partial": [
"Quot.sound",
"propext"
],
"PreCore.Settings.help_null_violated": [
"propext"
],
"PreCore.Settings.help_omits_violated": [
"Quot.sound",
"propext"
],
"PreCore.Settings.help_unregistered_violated": [
"Quot.sound",
"propext"
],
"PreCore.Settings.log_null_violated": [
"Classical.choice",
"Quot.sound",
"propext"
],
"PreCore.Block.bc1_colours": [
"Classical.choice",
"Quot.sound",
"propext"
],
"PreCore.Block.bc2_colours": [
"Classical.choice",
"Quot.sound",
"propext"
],
"PreCore.Block.bc3_colours": [
"Classical.choice",
"Quot.sound",
"propext"
],
"PreCore.Block.bc1A_colours_partial": [
"Classical.choice",
"Quot.sound",
"propext"
],
"PreCore.Block.entry4_defined": [
"Classical.choice",
"Quot.sound",
"propext"
],
"PreCore.Block.midpoint_violated": [
"Quot.sound",
"propext"
],
"PreCore.Block.third_cut_violated": [
"Quot.sound",
"propext"
],
"PreCore.Block.ends": [
"Quot.sound",
"propext"
],
"PreCore.Block.mix4_ok": [
"Classical.choice",
"Quot.sound",
"propext"
],
"PreCore.Uni.normMag_close": [
"Classical.choice",
"Quot.sound",
"propext"
],
"PreCore.Uni.unorm_close": [
"Classical.choice",
"Quot.sound",
"propext"
],
"PreCore.Uni.norm_close": [
"Classical.choice",
"Quot.sound",
"propext"
],
"PreCore.Uni.resample_length": [
"Quot.sound",
"propext"
],
"PreCore.Uni.resample_get": [
"Quot.sound",
"propext"
],
"PreCore.Uni.resample_close": [
"Classical.choice",
"Quot.sound",
"propext"
],
"PreCore.Uni.unpack_unorm": [
"Classical.choice",
"Quot.sound",
"propext"
],
"PreCore.Py.get_values_item_violated": [],
"PreCore.Py.frame_rate_partial": [
"Quot.sound",
"propext"
],
"PreCore.Py.frame_rate_violated": [],
"PreCore.Py.compare_order_violated": [],
"PreCore.Py.none_lost_violated": [
"Quot.sound",
"propext"
],
"PreCore.Py.wrapper_leak_violated": [
"Quot.sound",
"propext"
],
"PreCore.Py.void_calls_caught": [
"propext"
],
"PreCore.Py.void_calls_sliced_violated": [
"propext"
],
"PreCore.Py.modify_error_uncaught_violated": [
"propext"
],
"PreCore.Hk.correction_reads_partial": [
"Quot.sound",
"propext"
],
"PreCore.Hk.correction_identifies_partial": [
"Quot.sound",
"propext"
],
"PreCore.Hk.correction_ambiguous_violated": [
"propext"
],
"PreCore.Pugiex.parse_options": [
"Quot.sound",
"propext"
],
"PreCore.Pugiex.format_options": [
"Quot.sound",
"propext"
],
"PreCore.Pugiex.defaults": [
"Quot.sound",
"propext"
],
"PreCore.Pugiex.parse_option_on": [
"Quot.sound",
"propext"
],
"PreCore.Pugiex.from_file": [
"propext"
],
"PreCore.Pugiex.collect_children": [
"Quot.sound",
"propext"
],
"PreCore.Pugiex.py_enum_access": [
"Classical.choice",
"Quot.sound",
"propext"
],
"PreCore.Pugiex.py_enum_violated": [
"Quot.sound",
"propext"
],
"PreCore.Block.bc1A_decodes_partial": [
"Quot.sound",
"propext"
],
"PreCore.Block.bc1A_alpha_violated": [
"Quot.sound",
"propext"
]
}