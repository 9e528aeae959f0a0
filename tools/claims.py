claim("C01","proved","Base128","buint128_roundtrip buint128_prefix_free")
claim("C02","partial","Base128","bint128_outcome bint128_roundtrip_partial bint128_roundtrip_violated bint128_desync",
 "Code violates the property for values below -2^55 (wrong value or one byte left over); bint128_outcome gives the exact result for every value, the round trip holds iff value >= -2^55.")
claim("C03","proved","Endian","fbswap_reverses fbswap_involutive fbswapArray_image fbswapArray_involutive")
claim("C04","proved","BitField","get_layout layout_disjoint field_get_set_same field_get_set_other field_set_frame field_get_value")
claim("C05","proved","BitField","swapOut_mirrored swapEndian_roundtrip swapEndian_roundtrip_members")
claim("C06","proved","Flags","flags_refine_set flags_history flags_construct flags_eq_iff")
claim("C07","proved","Crypt","xor_roundtrip xor_empty_key","An empty key divides by zero (xor_empty_key).")
claim("C08","proved","Crypt","blowfish_decode_encode blowfish_encode_decode")
claim("C09","partial","Crypt","blowfish_mode_roundtrip_partial blowfish_mode_reverse_partial blowfish_ofb_symmetric blowfish_large_violated",
 "Sizes up to 2 GiB. Violated above: the int index overflows (2 to 16 GiB, undefined) and from 16 to 32 GiB nothing is encrypted at all.")
claim("C50","partial","Crypt","keyEntry_packs_partial blowfish_key_bytes_ignored blowfish_empty_key",
 "Violated for key bytes >= 0x80: sign extension wipes the bytes packed before them.")
claim("C10","proved","Jenkins","jenHash_spec jenHashCannon_published jenHash_append jenHash_order")
claim("C11","partial","Jenkins","hash3_tail_ignored hash3_last_block_matters_partial",
 "Violated: for lengths 24, 36, ... the last 12 bytes are ignored.")
claim("C51","partial","Jenkins","jenHashCannon_one_char jenHash_one_char_violated",
 "True of the textbook hash at equal length; the library's finalisation breaks it (witness: two 6-character names).")
claim("C12","partial","StringView","find_behaviour_partial find_char_partial find_not_late_partial find_end_violated find_first_char_violated rfind_violated rfind_char_partial rfind_reversed",
 "Violated: matches at the very end are missed, the first needle character is not compared, rfind reads before the view.")
claim("C13","proved","StringView","compare_spec operators_total_order")
claim("C14","partial","StringView","find_first_of_correct find_last_of_correct find_last_of_empty find_last_of_empty_violated find_first_not_of_partial find_last_not_of_partial find_not_of_violated find_first_not_of_empty_set",
 "find_first_of / find_last_of (non-empty view) are right; the *_not_of searches are wrong for sets of more than one character.")
claim("C15","partial","StringView","substr_correct substr_throws copy_behaviour_partial copy_overflow_violated copy_default_violated remove_correct remove_ub",
 "substr and remove_* are right; copy writes one character too many, and nothing with the default count.")
claim("C16","partial","FileInfo","path_split folder_name_ext_partial dot_in_folder_violated reload_empty_violated",
 "Violated when the last dot is in a folder name, and when an empty path is loaded over an old one.")
claim("C17","proved","FileInfo","explode_join explode_empty_ub","Non-empty paths; exploding the empty path is undefined behaviour (explode_empty_ub).")
claim("C18","proved","Stream","script_roundtrip script_frame scalar_image")
claim("C19","proved","Stream","script_roundtrip counted_prefix lambda_roundtrip readString_terminates readString_failed_violated",
 "On good streams. On a stream that already failed ReadString may not end (readString_failed_violated).")
claim("C20","partial","Stream","push_pop_partial pop_after_eof_violated nested_push_violated tell_seek origin_laws seek_tell getSize_spec",
 "Violated after reading past the end (sticky failure) and for nested pushes (one slot).")
claim("C21","proved","Stream","padding_lands script_roundtrip")
claim("C21","proved","Supercore","getPadding_spec")
claim("C22","proved","Supercore","isPow2_iff skipStart_spec skipEnd_spec trim_spec trim_overread_violated",
 "The results are right; on blank views one character outside of the view is read (trim_overread_violated).")
claim("C52","partial","Supercore","fourCC_bytes_partial fourCC_violated","All tags of 7-bit characters. Violated: a character above 0x7f is sign extended and sets all higher bytes.")
claim("C53","partial","Supercore","atoh_partial atoh_violated","All characters up to 'f'. Violated: 'g' reads the terminator (0), later characters read past the table.")
claim("C23","partial","Refl","set_signed_partial set_unsigned_correct set_signed_violated int_roundtrip bool_roundtrip bool_invalid_violated",
 "Unsigned fields are proved for every text; signed ones for texts that do not put blanks other than space/tab before the minus (then saturation goes to the wrong bound). Bool fields store false on malformed text.")
claim("C24","partial","Refl","frame_partial frame_lists_partial element_frame_partial typed_frame array_overrun_violated element_overrun_violated component_check_violated",
 "Lists of bools, flags and strings: proved for texts with fewer commas than the list has elements, and for every text that no more than one element per comma is reached; violated for a blank trailing item, and for element numbers out of range.")
claim("C25","partial","Refl","enum_roundtrip_partial enum_set_padded enum_negative_violated","Violated for negative enumerators of enums narrower than 8 bytes (printed as empty text).")
claim("C26","partial","Refl","flags_roundtrip flag_bit_violated","Round trip for words whose set bits are all registered; printing a single bit above 31 is undefined behaviour.")
claim("C44","proved","Refl","lookup_correct")
claim("C46","partial","Refl","bitmember_partial bitmember_print bitmember_signed_violated bitmember_range_violated bitmember_invalid_violated",
 "Violated for signed members, for malformed text (member cleared) and for members of 31 bits or more (int shift).")
claim("C27","partial","Refl","list_assign_partial int_list_assign int_list_roundtrip quoted_items_violated short_list_violated array_overrun_violated",
 "Violated for quoted items (nothing assigned), lists with too few items (not reported) and blank trailing items.")
claim("C45","partial","Refl","enum_registration_partial enum_init_violated","Proved for literal initialisers; expressions, octal, binary and negative hex literals get wrong values.")
claim("C28","partial","ReflBin","bin_roundtrip_partial bin_int64_violated bin_nested_diverges bin_array_of_arrays_violated","Round trip for every class table, object, following stream and target object, with all field kinds; excluded because the code fails there (witness theorems): int64 below -2^55, classes nested two or more levels deep, arrays of arrays.")
claim("C29","partial","ReflBin","load_class_mismatch load_count_mismatch load_items load_other_version load_error_lost_violated","Class mismatch, count mismatch, unknown items anywhere, other class versions; chunks of 2 GiB or more are skipped with a negative offset and excluded. An error of an earlier field is overwritten by a later good field (violated).")
claim("C30","partial","Threads","queue_safe queue_complete queue_terminates_partial queue_zero_hw_violated","Safety for every schedule; termination for every fair run on a machine reporting at least one hardware thread. When hardware_concurrency() is 0 the call never returns (violated).")
claim("C31","partial","Alloc","linked_partial owned_sound deleter_foreign deleter_owned grow_shares_violated grow_frees_foreign_violated","Sound for every history in which the client does not allocate while it holds the foreign buffer; a growing std::vector does, and gets the same memory twice and deletes foreign memory (violated).")
claim("C32","partial","Pointer","fixup64_resolves fixup64_forced fixup32_forced fixup64_again fixup32_again fixAll64_history fixAll32_history assign32_resolves fixup32_resolves fixup32_null fixup32_far_violated two_threads_violated stale_list_violated","All histories of one thread. The list of fixed pointers is per thread and outlives the data (violations).")
claim("C41","partial","DirScan","scan_partial path_inj quoted_dir_violated backslash_dir_violated","Every tree, depth and filter set whose folder names do not end in a quote or backslash (those are mis-scanned: violated). Readdir order is a parameter.")
claim("C42","partial","Printer","printer_delivers printer_message printer_memory flushAll_stale_violated nul_text_violated","Every interleaving of any number of threads, NUL-free text, flushing through >>. The public FlushAll() without the terminator shows stale text, and NUL cuts text (violated).")
claim("C43","proved","VirtualIter","forEach_all forEach_vector explicit_position_violated explicit_position","Iterators constructed at an explicit position of 0xffffffff or more become the end iterator (explicit_position_violated).")
claim("C48","partial","Wave","next_position next_violated walk_corrected riff_size calc_linear calc_adpcm_violated valid_chunk_iff","Next() lands 8 bytes before the following header for every chunk (violated); proved for the corrected step.")
claim("C34","partial","Morton","addr_bits morton_injective morton_bijective_partial tall_violated small_rectangle_violated","Bijection for every supported size that is at least as wide as high; injective for all supported sizes. For every texture higher than wide an address outside of the texture is produced, and rectangles with a side below 16 write outside of the mask arrays (violated).")
claim("C36","partial","Dds","mips_tile bytesBefore_next block_level_partial block_square_pow2 block_level_violated block_flat_violated empty_level_violated large_level_violated many_mips_violated typeless_violated numMipmaps_spec computeBPP_dx10","Offsets and sizes for every texture below 4 Gibit per level; whole blocks for levels whose sides are multiples of 4 or at most 4. Violated for other sides, for flat levels, above 4 Gibit, above 15 levels, and for typeless block formats.")
claim("C37","proved","Dds","legacy_roundtrip forced_roundtrip forced_representable legacy_bpp fourcc_roundtrip_partial stale_alpha_violated","Both directions for every header; the reverse direction assumes a header whose alpha mode was not set before (stale_alpha_violated).")
claim("C54","partial","Dds","masks_partial masks_violated","Right for R16G16, A8, B5G6R5 and B5G5R5A1; red and blue are exchanged for 8 and 4 bit channels, and R10G10B10A2 loses its alpha mask.")
claim("C35","proved","Block","bc4_decodes bc5_decodes bc5GA_decodes bc3_decodes bc2_decodes bc1_decodes texel_inside","All block contents, positions and image sizes the 32 bit arithmetic can address. The colours of a colour block are a parameter here (any palette); C76 puts the ones of the code in. BC1 with alpha: C84.")
claim("C33","partial","Zip","open_get open_get_member open_refuses_member open_refuses_unknown empty_member_violated streamed_member_violated open_never_returns_violated","Every archive of stored members (below 2 GiB each) and directory records, at any origin. Violated: empty members are not listed; members with sizes in a data descriptor are neither refused nor skipped; a wrapped skip length makes opening loop forever.")
claim("C39","partial","EsFloat","toVector4_exact half_toVector4_exact toFloat_exact half_toFloat_exact_partial half_toFloat_violated half_negative_zero_violated toVector4_subnormal_violated toVector4_nan_violated","Vector decoding of every half float that is no NaN is exact, scalar decoding of all but the 1024 negative ones with exponent zero (those are near -1: violated); also for every other layout's zeros, normals and infinities. Vector decoding turns NaNs into infinity.")
claim("C55","partial","EsFloat","half_round_trip_partial half_fromFloat_round_trip_partial half_encode_below_half_violated half_encode_violated half_fromFloat_violated","Proved for the ranges the encoders handle; violated for all positive normals below 0.5 (vector), -1.0, 1.0 (scalar), negative subnormals.")
claim("C38","partial","Uni","uint_exact int_exact noFrac_exact signed_exact sample_each sample_refuses sample_uint_partial sample_int_partial codec_registry uint_reads_past_violated norm_reads_past_violated sample_past_end_violated noFrac_leaks","Every buffer, stride, count and format; integer channels are exact bit slices. Violated: R32 and R32G32 integer codecs read 12 bytes, R16G16B16, R8G8B8 and R32G32 normalised codecs read past their element, and some channels of R5G6B5 and R11G11B10 mix in a neighbour's bit. Float codecs: see C39.")
claim("C56","partial","Uni","unorm_value unorm_normalised norm_value norm_normalised normMag_mono normMag_ends normMag_range norm_min_violated unorm_red_violated unorm_blue_violated","Every format and channel whose bits are extracted cleanly, with exact round-to-nearest-even arithmetic. Violated: most negative signed value is below -1, red of R5G6B5 never reaches 1, blue of R11G11B10 depends on green.")
claim("C40","partial","Vec","toMatrix_ops matrix_laws transpose_part transpose_involutive_partial transpose_violated rotatePoint_conj rotatePoint_violated ofQuat_mul ofQuat_orthogonal toQuat_ofQuat fromQuat_toQuat compose_decompose decompose_compose decompose_spec decompose_mirror epsF_nearest inverse_product inverse_iff inverse_partial inverse_translation_violated inverse_small_violated","Exact arithmetic over commutative rings, ordered fields and the reals, against Mathlib's matrices and quaternions; floats with rounding are C130, C131 and C133. Violated: the inverse of a rotation with translation is wrong (m * -m has translation t B - B t), rows shorter than 0.001 are not inverted, the 3x3 transpose loses fourth components, RotatePoint rotates by the conjugate quaternion.")
claim("C49","partial","Vec","lanes2 lanes3 lanes4_partial normalize2_spec normalize3_spec normalize4_spec orAssign_violated mk4_lanes get_bounds shift_lanes not_lanes toFlt_signed toFlt_unsigned_violated intEq_iff isSymetrical_iff swapEndian_lanes dot_sum dot_comm dpPs_comm_any dot_bilinear cross_laws simd_cross simd_cross_laws neg_add qConjugate_spec fltEq_iff simdLt_iff simdLe_partial simdLe_violated simdIsSymetrical_iff simdIsSymetrical_violated simdSign_iff simdNormalized_spec qComputeElement_partial qComputeElement_violated","Exact arithmetic; floats with rounding are C130 to C132. Violated: |= of four plain components stores the and, <= and >= are not lane by lane, IsSymetrical ignores the fourth component, unsigned lanes convert to negative floats, QComputeElement uses the old element.")
claim("C47","partial","ReflIO","save_load_partial save_load alias_hashes_lost_violated save_behind_data_violated load_refuses loadMore_empty load_again_violated","Every database of any size below 2 GiB, every buffer address; complete without alias hashes. Violated: alias hashes are always lost; saving behind other data writes the header to the start of the file. Loading with an object that already holds classes converts their pointers again (load_again_violated; modelled for classes only, without moving the buffer).")
claim("C57","partial","Crypt","encodeBlock_textbook setKey_textbook_partial","Encryption of a block is the published network for every key and block; the key schedule is the published one for keys of 7-bit characters, whatever the initial tables; the literal tables are proved to be the binary digits of Real.pi, so the cipher is Schneier's. Missing: 8-bit key characters, where the code deviates (C50).")
claim("C58","partial","Jenkins","hash3_lookup3_partial hash3_lookup3_violated hash3_tail_ignored","Equal to hashword for every text and seed except lengths 24, 36, 48, ...: there the closing step is left out (violated).")
claim("C59","partial","Refl","sub_get sub_set_get elem_get flag_get_partial flag_elem_get_partial flag31_violated flag_bit_violated subclass_elem subclass_member subclass_none","Integer elements and components of every list, class elements; single flags 0 to 30. Flag 31 and above is violated (int shift).")
claim("C60","proved","Refl","bool_set_text bool_roundtrip")
claim("C61","partial","ReflXml","xml_roundtrip_partial hash_names xml_leading_blank_violated xml_markup_violated xml_signed_bits_violated","Every class and nesting, every value whose text denotes it (integers, 0/1 bools, registered enumerators and flags, floats that their decimal text denotes, lists of these, lists of vectors, lists of strings without commas, brackets and markup, strings without XML markup that do not start with a blank, bit members up to 30 bits). pugixml is a tree type and a fragment parser that keeps plain text. Violated: strings with markup are inserted as XML, leading blanks of strings are dropped, signed bit members below zero are loaded as another value.")
claim("C61","partial","FloatTextProps","xml_float_roundtrip xml_float_tree_roundtrip xml_float_lossy_violated","With the real texts of floats and doubles (C140): objects of floats, doubles, and arrays and vectors of them are restored to the bit when some text of 6 (13) digits denotes each (xml_float_roundtrip, xml_float_tree_roundtrip for nested classes); other floats come back changed (xml_float_lossy_violated).")
claim("C62","partial","ReflXml","xml_load_frame xml_load_frame_lists_partial xml_load_ignores xml_load_defined_partial xml_load_item_violated","Every document; with lists of bools, flags or strings every document in which their texts have fewer commas than elements (see C24). Violated: an item number behind the end of a list of classes dereferences a null instance.")
claim("C63","partial","ReflXml","xml2_roundtrip_partial xml2_unknown_child_violated xml2_index_violated xml2_axis_violated xml2_byte_vectors_violated xml2_nameless_list_violated","Round trip for every class, nesting and document, values as in C61 plus flags below 31, vectors of at most four components; lists need member names and vectors in lists no more components than a component has bytes. Excluded as violated in C61: signed bit members below zero, strings with markup (as nodes) or a leading blank. Violated: unknown child with attributes (null dereference), item number or axis name out of range (write outside the member), lists of vectors of two bytes, lists without member names.")
claim("C63","partial","FloatTextProps","xml2_float_roundtrip","With the real texts of floats and doubles: objects of floats, doubles and vectors of up to four of them.")
claim("C64","partial","Refl","macro_loop_partial macro_loop_violated","Every list of 1 to 86, or 89, items, and rejection of 90 or more. Violated for exactly 88 items (last one silently dropped) and 87 (an empty item is added): the count table has 87 and 88 exchanged.")
claim("C65","partial","Refl","table_describes_partial members_independent_partial registered_ids getByHash_eq table_limits_violated nested_array_violated","Every class with offsets below 64 KiB, elements below 256 bytes and fewer than 65536 of them. Violated silently beyond these limits, and for arrays of arrays. Independence for lists of bools, flags and strings needs texts with fewer commas than elements (C24). offsetof and sizeof are inputs of the model; std::string has 32 bytes.")
claim("C66","partial","Refl","typed_roundtrip_partial typed_frame typed_first_violated typed_overflow_violated","Every integer width and element above 0, floats up to the narrowing conversion (a parameter). Violated: the first element of every list is refused, numbers that do not fit are stored truncated with success.")
claim("C67","partial","Refl","pair_extended desc_split pair_varnames pair_null_violated","Every EXTENDED class, member, description and setting. Violated: aliases of a VARNAMES class and formatted values of a class that is not EXTENDED index a null table (so SettingsManager::CreateLog is undefined for a VARNAMES class).")
claim("C68","partial","Refl","bitfield_by_name_partial bitfield_order_violated","Bit fields whose members are registered from the first on in declaration order, members of at most 30 bits. Violated for any other order or when leading members are left out.")
claim("C69","partial","Mkdirs","mkdirs_one mkdirs_plain mkdirs_batch mkdirs_batch_here mkdirs_one_only mkdirs_batch_only mkdirs_base_without_slash_violated mkdirs_missing_base_violated","Every tree without symbolic links, permissions and limits (the host is a POSIX model), NUL-free names, an empty base or an existing folder ending in a slash. Violated for a base without its slash (folders are made beside it) and for a base that does not exist (nothing is made).")
claim("C70","partial","Mkdirs","fileType_partial fileType_error fileType_socket_violated","Every mode; sockets and block devices are reported as directories (violated).")
claim("C71","partial","Except","header_alnum header_hex header_inj_partial header_zero_violated header_wide_violated","Every 32 bit number. Violated: what follows a zero byte is left out; 64 bit numbers and negative int32 numbers without a zero byte are read past their end.")
claim("C72","proved","ZipRec","zip_write zip_read zip_round_trip zip_short","All six record types, every value, natural alignment, streams without endian swapping.")
claim("C73","partial","Uni8","to_wide from_utf16 from_utf16z from_utf32 from_utf32z wide_roundtrip_partial wide_roundtrip_violated empty_violated malformed_refused","Every text of Unicode scalar values; std::codecvt is modelled by the UTF-8/16 definitions. Round trip for non-empty texts below U+10000. Violated: characters above U+FFFF do not survive the wide round trip; the empty string is undefined.")
claim("C74","partial","Py","py_for_partial py_refcount_violated py_nested_violated py_subscript py_subscript_violated py_enum py_enum_unknown_violated","Every list, index and enum. Violated: each for loop drops a reference it never took, nested loops share one position, indexes out of range throw a C++ exception through the interpreter, unknown enum names return null without an exception.")
claim("C75","partial","Settings","help_lists_partial help_null_violated help_omits_violated help_unregistered_violated log_lists log_null_violated","Every EXTENDED class of any nesting. Violated: classes that are not EXTENDED (null table), unregistered member classes (exception), values of flags and of lists of enums (left out).")
claim("C57","partial","Crypt.Pi","tables_are_pi blowfish_published_partial")
claim("C76","partial","Block","bc1_colours bc2_colours bc3_colours bc1A_colours_partial entry4_defined midpoint_violated third_cut_violated ends mix4_ok","IEEE single precision with every operation rounded, all end colours. Violated: in three colour blocks the middle colour is 127/255 of the sum, so the middle of white and white is 254; interpolated values that are whole numbers can be one lower.")

claim("C77","partial","Uni","normMag_close unorm_close norm_close resample_length resample_get resample_close unpack_unorm","Every format, buffer, count, stride and all floats whose results stay in range; IEEE single precision, every operation rounded once (no FMA contraction). Only for channels whose bits are extracted cleanly (the others are violated, C56: red of R5G6B5, blue of R11G11B10), and without the most negative signed number.")
claim("C78","partial","Py","get_values get_values_refuses get_values_item_violated frame_rate_partial frame_rate_violated","Every track and list of numbers. The interpreter is a parameter (number conversion). Violated: a list with an item that is no number returns values with an exception set; negative or too large frame rates wrap around with success.")
claim("C79","partial","Py","parents_not_deleted ancestors_chain compare_equal compare_equivalence compare_order_violated none_lost_violated wrapper_leak_violated","Every skeleton and history of reads. Violated: the parent of a root gives away a reference of None it never took; wrappers are never freed; different bones are each greater than the other.")
claim("C80","partial","Py","void_calls_caught void_calls_sliced_violated modify_error_uncaught_violated","Violated: the error is sliced to std::exception (type and message lost), ModifyError derives privately so no std handler takes it.")
claim("C81","partial","Hk","correction_reads_partial correction_identifies_partial correction_ambiguous_violated","Every matrix that maps axes to axes (what the presets are for). Violated for rows with several entries: the text is ambiguous.")
claim("C82","proved","Pugiex","parse_options format_options defaults parse_option_on from_file collect_children","pugixml's constants are the specification, its parser a status parameter, its tree the type of C61.")
claim("C83","partial","Pugiex","py_enum_access py_enum_violated","Every enum of distinct names and every valid index. Violated: indexes out of range are undefined behaviour, unknown names return null without an exception, negative enumerators become huge.")
claim("C84","partial","Block","bc1A_decodes_partial bc1A_alpha_violated bc1A_colours_partial","Colours for all blocks; alpha only where the code writes it. Violated: alpha stays unwritten for four colour blocks.")
claim("C85","proved","StringView","find_first_of_correct find_last_of_correct find_last_of_empty","The part of C14 that holds.")
claim("C86","proved","StringView","substr_correct substr_throws remove_correct","The part of C15 that holds; copy is violated there.")
claim("C87","proved","Stream","tell_seek seek_tell origin_laws getSize_spec","The part of C20 that holds.")
claim("C88","proved","Refl","set_unsigned_correct int_roundtrip","The part of C23 that holds for every text.")
claim("C89","proved","Threads","queue_safe queue_complete","Safety part of C30, including zero hardware threads (the call then does not return).")
claim("C90","proved","Alloc","owned_sound deleter_foreign deleter_owned","The part of C31 that holds for every client.")
claim("C91","proved","Pointer","fixup64_resolves fixup64_forced fixup32_forced fixup64_again fixup32_again fixAll64_history fixAll32_history assign32_resolves fixup32_resolves fixup32_null","The part of C32 that holds; the list of fixed pointers starts empty and belongs to the thread.")
claim("C92","proved","Block","bc1_colours bc2_colours bc3_colours entry4_defined mix4_ok ends","The four colour part of C76.")
claim("C93","proved","Dds","mips_tile bytesBefore_next numMipmaps_spec computeBPP_dx10","The part of C36 that holds; whether a level is a whole number of blocks is C36.")
claim("C94","proved","Vec","toMatrix_ops matrix_laws ofQuat_mul ofQuat_orthogonal toQuat_ofQuat fromQuat_toQuat compose_decompose decompose_compose decompose_spec","The part of C40 that holds; exact arithmetic; floats with rounding are C130, C131 and C133 (ToQuat, Decompose and the inverse only exactly).")
claim("C95","proved","Vec","lanes2 lanes3 dot_sum dot_comm dot_bilinear cross_laws simd_cross simd_cross_laws swapEndian_lanes mk4_lanes get_bounds shift_lanes not_lanes","The part of C49 that holds.")
claim("C96","proved","ReflXml","xml_load_frame xml_load_ignores","The part of C62 that holds; definedness is C62.")
claim("C97","proved","ReflBin","load_class_mismatch load_count_mismatch load_items load_other_version","The part of C29 that holds.")
claim("C98","proved","Morton","addr_bits morton_injective","The part of C34 that holds for all supported sizes.")
claim("C99","proved","EsFloat","toVector4_exact half_toVector4_exact","The part of C39 that holds.")
claim("C100","proved","Mkdirs","mkdirs_one mkdirs_one_only mkdirs_batch mkdirs_batch_here mkdirs_batch_only","The part of C69 that holds.")
claim("C101","proved","Printer","printer_delivers printer_message","The part of C42 that holds.")
claim("C102","proved","Py","ancestors_chain parents_not_deleted compare_equal compare_equivalence","The part of C79 that holds.")
claim("C103","proved","Py","get_values get_values_refuses","The part of C78 that holds.")
claim("C104","proved","Refl","flags_roundtrip","C26 for whole words.")
claim("C105","proved","Refl","int_list_assign int_list_roundtrip sub_get sub_set_get elem_get subclass_elem subclass_member subclass_none","The integer part of C27 and C59.")
claim("C106","proved","Refl","pair_extended desc_split","The part of C67 and C75 that holds.")
claim("C106","proved","Settings","log_lists")
claim("C107","proved","Uni8","to_wide from_utf16 from_utf16z from_utf32 from_utf32z","The part of C73 that holds.")
claim("C108","proved","Crypt","encodeBlock_textbook","The key schedule is C57.")
claim("C108","proved","Crypt.Pi","tables_are_pi")
claim("C109","proved","Zip","open_get open_get_member open_refuses_member open_refuses_unknown","The part of C33 that holds.")
claim("C110","proved","Uni","uint_exact int_exact signed_exact sample_each sample_refuses codec_registry","The part of C38 that holds.")
claim("C111","proved","ReflIO","save_load load_refuses","The part of C47 that holds.")
claim("C112","proved","Wave","riff_size calc_linear valid_chunk_iff","The part of C48 that holds.")
claim("C113","proved","FileInfo","path_split","The part of C16 that holds.")
claim("C114","proved","Base128","bint128_outcome","Complete description behind C02.")
claim("C115","partial","BinFile","readers_are_cursors reopen_violated move_violated unopened_violated","Refinement for programs that open once and do not move. Violated: an object cannot be reopened (the second Open reports FileNotFound and fails the stream; Close_ is protected and never called); a moved object still uses the stream of the old one; use before Open dereferences null.")
claim("C116","partial","UnitTest","bang_parses check_partial check_equal_violated compare_checks cmp_precedence_violated cases_count cases_zero cases_cancel_violated","Violated: arguments are pasted without parentheses, so TEST_CHECK(a == b) is !a == b; comparing macros tear weaker operators apart; negative results cancel failures.")
claim("C117","proved","Element","elements_sound elements_defined elements_use to_element","release(), reset() and get() by the client are not among the operations.")
claim("C118","proved","BinFile","readers_are_cursors","The part of C115 that holds.")
claim("C119","proved","UnitTest","compare_checks not_check cases_count cases_zero","The part of C116 that holds.")
claim("C120","proved","PrinterColour","colours_erase plain_sinks colours_shown colours_own colour_fits colour_text_spec restore_spec colour_text_injective","The console functions do not take the lock; their calls are modelled as happening between flushes. POSIX branch.")
claim("C121","proved","Max","suffix_text suffix_order suffix_again","std::sort is modelled by a sort whose result is unique.")
claim("C122","proved","Max","resize_spec","The 3ds Max interface behind it is a list of layers.")
claim("C123","proved","Max","params_independent accessors_distinct id_rule","The parameter block of 3ds Max is a map; types of values are not distinguished.")
claim("C124","partial","PrinterColour","flush_shows colours_shown info_colour_violated colour_overflow_violated","Complete description of what is shown. Violated: an informational message has the colour set by the program on the first sink only, because each coloured sink's round resets all sinks; large numbers overflow buffer[32].")
claim("C125","partial","Max","suffix_text suffix_ambiguous_violated full_color_twice_violated","Violated: channels are written without separator; AddFullColor adds -2 on every call.")
claim("C126","partial","Max","delete_spec delete_negative_violated","Violated: negative positions reach the interface when there are several layers.")
claim("C127","partial","Block","bc5_blue_partial bc5_blue_violated bc5_blue_outside bc5_blue_short_violated","Holds to 2.2 steps for whole pixels on x86 and where char is unsigned. Violated by the language rules: with a signed char the conversion is undefined for every pixel inside the unit circle; sizes that are not a multiple of 3 are read past the end.")
claim("C128","partial","Dds","bpp_dx10_partial bpp_legacy_partial bpp_kept isBC_iff layout_blocks bpp_pairs_violated bpp_palette_violated bpp_uyvy_violated typeless_violated","Exact for every format but 15: formats that pair pixels count twice (R8G8_B8G8, G8R8_G8B8, YUY2, Y216), P010, P016 and 420_OPAQUE have wrong sizes, palettes and five video formats count as empty; UYVY has no size; typeless block formats are not laid out in blocks. The enumerators P208, V208, V408 also have values that differ from the documented ones.")
claim("C129","partial","Block","simd_ends simd_thirds_partial simd_thirds_violated simd_pixels_violated","End colours are within 7 of 255 for every block and nothing else is written. Interpolated colours are within 9 only if the end colours lie in the same half of every channel; whenever they lie in different halves of a channel the result is off by more than 70 (lanes are signed bytes). With pixeloffset 4 the twelve bytes of a row are stored without gaps, so the last texel of each row is never written.")
claim("C130","proved","Vec","lanes_rounded dot_simd_accurate dot_accurate product_accurate identity_exact whole_numbers_exact","The same functions as in C40 and C49 with the operators of float. No fused operations, no excess precision (x86-64 SSE).")
claim("C131","partial","Vec","length_accurate normalize_accurate_partial normalize_unit_partial normalize_range_violated","Holds when the sum of the squares is between 2^-100 and 2^120. Violated outside: (2^64, 0, 0, 0) is normalized to the zero vector (the square is infinite) and (2^-80, 0, 0, 0) is left alone (the square is zero).")
claim("C132","partial","Vec","close_equal equal_nearly nan_unequal order_exact equal_symmetric_violated","Violated: not symmetric. 2 == 2 + 2^-22 but 2 + 2^-22 != 2, because the bounds are computed from the second operand and rounded. equal_nearly is for components up to 2^126.")
claim("C133","proved","Vec","ofQuat_accurate rotatePoint_accurate","What the exact functions do is C40 / C94 (RotatePoint rotates by the conjugate quaternion).")
claim("C134","partial","Uni","float32_exact float16_exact float16_single_partial float16_single_violated float11_exact_partial float10_exact_partial float10_violated float11_subnormal_violated","32 bit floats and vectors of half floats (but NaN) are exact. Violated: a single half float -0 is read as -1 (all negative ones with exponent zero are wrong), NaNs of half float vectors become infinite (C39), subnormals of R11G11B10 are 16 times too small, its blue has the top bit of green below its own bits.")
claim("C135","partial","SceneIter","loop_visits_lent loop_visits_vector loop_given_violated loop_given_empty","Holds for every class that lends its list. Violated: begin() makes the iterator of a temporary Element, so a list that is given away is deleted before the loop starts, and the first round reads deleted memory, for every list that is not empty.")
claim("C136","partial","VectorText","text_is_components text_injective stream_is_components_partial stream_bytes_violated","Violated by streams for all vectors of int8 and uint8: their components are written as characters. to_wstring is declared to return string and cannot be compiled; floats are C162.")
claim("C137","partial","Rts","default_place place_mul chain_partial chain_default_violated equal_iff_close nan_different tuple_order","Exact arithmetic over commutative rings for the transforms, floats for the comparison. Violated: the fourth component of the default translation is 0, so a bone with the default value in front of its parent loses the parent's position. Symmetry of the comparison: C132.")
claim("C138","proved","StringView","views_are_strings views_stay_inside","Pointer level model; the documented preconditions (n <= size, C strings end) are hypotheses on the program.")
claim("C13","proved","StringView","operators_agree compare_parts","")
claim("C139","partial","FloatTextProps","set_float_partial set_float_words set_float_sign_violated set_float_sign_witness_violated","Violated: a positive number of at most 2^-1075 (such as 1e-400) stores the negative smallest normal number, because atof returns 0 and the test is fVal > 0. strtof/strtod are modelled by their definition (correctly rounded).")
claim("C140","partial","FloatTextProps","get_float_rounded set_get_short get_set_get_stable get_float_length float_survives_iff short_faithful float_text_lossy_violated float_subnormal_violated","Violated: %.6g and %.13g are too short, so most floats and doubles come back changed (float_survives_iff says exactly which do not), and subnormal numbers come back as the smallest normal number. Proved: the text is the correctly rounded one, short numbers survive, texts are stable.")
claim("C141","proved","Vec","nan_lanes nan_spreads nan_product div_zero with_infinities order_line","The payload of a NaN and the sign of the default NaN are those of x86; contraction to fused operations is excluded (trusted).")
claim("C142","partial","TypeReg","registration_succeeds last_registered registered_found_partial member_class_partial static_registration_partial plain_classes_violated names_clash_violated static_registration_violated","Violated: classes created without flags all have the hash 0, so only the last one registered is found; names with equal 32 bit hashes (ChunkLayer, ChunkRoomColor) replace each other silently; static registration objects initialised before the maps use maps that are not constructed. Proved without clashes and with the maps first.")
claim("C143","partial","PrinterWin","colour_shown colour_visible restore_violated","Violated: RestoreConsoleTextColor() sets grey on black instead of the saved attributes, so the colours of any other console are lost.")
claim("C144","partial","UnitTestRun","comparisons_partial checks_partial function_result program_result_partial check_equality_violated loose_argument_violated nan_checks_violated sum_violated","Violated: the macros paste their arguments without parentheses, so TEST_CHECK(a == b) tests !a == b (TEST_CHECK(1 == 2) succeeds) and arguments with &, |, &&, || or a second comparison are torn apart; the ordering checks accept NaN; return values other than 0 and 1 can cancel. Proved for arguments whose operators bind tighter than the comparison. Side effects, overflow and operators not listed in the model are excluded.")
claim("C145","partial","FractionT","fraction_below fraction_refused fraction_agrees fraction_differs_violated","Violated in its last part: GetFraction rounds to the nearest float, GetFraction_t down, so the widths 2, 3, 4, 6, 8, 12 and 24 differ by one unit in the last place.")
claim("C146","proved","ReflBin","load_frame load_in_object load_bound load_layout_needed registered_laid","Behind the end of a stream the program goes on with whatever its variables hold; taking that as arbitrary bytes this is the claim for the stream continued by them. Skips of 2 GiB or more, members of class type that are not registered and integers of more than 8 bytes have no answer in the model and are outside the claim.")
claim("C147","partial","ReflXml","xml2_load_frame_partial xml2_index_violated xml2_axis_violated","Every document whose indexed names and axes are meant for elements and components that exist and whose texts are not longer than a list of bools, flags or strings; nothing is assumed about names of no member, missing members, repeated members, or values. Violated: an item number behind the end of a list and an unknown axis write outside the object.")
claim("C148","proved","Zip","open_sound get_sound open_returns","Any file below 2^62 bytes, any origin and state of the reader; no assumption about the content for soundness.")
claim("C149","partial","Zip","reads_independent_partial truncated_member_violated large_member_violated","Every file whose lengths are below 2 GiB and whose listed members lie in the file, every sequence of names. Violated: a truncated archive opens without error and reading its incomplete member fails the shared reader for all others; a stored member of 2 GiB or more makes opening itself fail the reader silently (the length is converted to int), so that nothing can be read and nothing behind it is listed.")
claim("C33","partial","Zip","large_member_violated","")
claim("C112","proved","Wave","bits_of_format","")
claim("C59","partial","Refl","flag31_any_violated","")
claim("C150","proved","ZipConc","concurrent_gets gets_progress gets_finish","Calls for members that lie in the file (see C149 for others); std::mutex is its specification; steps are the statements that touch the reader or the mutex. The stream is used by this archive only.")
claim("C151","partial","IntVec","int_lanes int_exact int_wraps_partial mul_u16_violated i32_defined int_div int_bits int_sign int_shr int_shl int_shl_shr int_neg_partial neg_u16_violated int_dot int_length_partial length8_violated int_normalize int_normalize_violated","Violated: uint16 products from 2^31 (and unary minus of components from 32769) overflow the int they are promoted to; << of a negative or too large component is undefined (C++14); Length of 8 bit vectors longer than the element type holds is undefined; Normalize of integer vectors gives -1, 0, 1 and loses the direction. Length/Normalize are proved for 8 and 16 bit elements and any root function close enough to the exact one. Shifts by a scalar do not compile unless the element type is int32 (not modelled).")
claim("C152","partial","DirScanWin","attr_bits scanW_partial scanW_ends first_missed_violated fileTypeW_spec fileType_hosts_violated","Violated: what FindFirstFile returns is thrown away, so a folder that does not list '.' first (a drive root) loses its first entry; a missing path is Invalid here and Error on POSIX. Names are the UTF-8 texts after std::to_string.")
claim("C41","partial","DirScan","scan_ends","Every scan of a finitely nested tree ends.")
claim("C153","proved","Crypt","blowfish_modes","Buffers up to 2 GiB; larger ones fail as C09 says.")
claim("C130","proved","Vec","lanes_rounded_small","")
claim("C141","proved","Vec","nan_spreads_small small_lanes","")
claim("C154","partial","Uni8","uprintf_plain uprintf_wide_partial uprintf_violated isHelp_iff","Violated in builds with UNICODE: the text is used as a format string, so it is printed as it is exactly when it has no percent sign; '%' followed by anything but '%' is undefined. wprintf is modelled from the C standard.")
claim("C155","partial","ZipFile","files_are_cursors_partial move_violated move_shares_violated not_elided_violated","Violated: a moved file still reads from the buffer it was moved from (nothing, undefined once that is gone, or the bytes of another member put in its place); the same when the compiler does not elide the copy of Get's result (allowed).")
claim("C156","partial","ReflIO","saved_inside inside_fits too_many_classes_violated too_many_names_violated names_outside_violated alias_hashes_misplaced_violated","Proved for every file written by Save (below 2 GiB). Violated for damaged files: no count or offset is compared with the size of the buffer, so every file whose records, enum names or member names do not fit makes Load write behind the buffer; the pointer to alias hashes is stored over the pointer to the aliases. Not modelled: memory for the lists of classes and enums, alignment.")
claim("C139","partial","FloatTextProps","set_float_hex_partial","")
claim("C157","partial","PyLife","kept_defined_partial lent_defined owned_deleted_once given_owned lender_not_kept_violated","Violated: a wrapper holds no reference to the wrapper it was lent from, so dropping a skeleton or motion that Python owns leaves its lists and their items dangling (bones = Skeleton().bones; len(bones)). Proved when parts are dropped first, and when the C++ program keeps the scene and lends everything; deletion exactly once in every program. Not modelled: given lists that refer to their giver.")
claim("C158","partial","Vec","missing_component_partial missing_too_long missing_component_violated","Violated: nothing keeps 1 - |v|^2 from being negative, so quaternions whose missing component is about zero (rotations by 180 degrees) may give NaN, e.g. (20,28,29,0)/45. Proved to 2^-20 when the square of the rest is at most 1 - 2^-20. An old value in the place of the component is counted (C95).")
claim("C141","proved","Vec","sqrt_special","")
claim("C159","proved","Vec","toQuat_accurate quat_matrix_quat","Elements up to d off (2^-18 <= d <= 2^-16) give components up to 16 d off. Stored unit quaternions (2^-23) come back up to sign and 2^-14. The fourth element of the second row must be 0, as the code reads it (C40).")
claim("C160","proved","Vec","decompose_accurate compose_accurate compose_decompose_accurate","Elements up to 2^-18 of the scale off; scales come back up to 2^-16 of them, quaternions up to 2^-12. Scales of different signs cannot be told from a rotation (C40, decompose_mirror).")
claim("C161","partial","Vec","inverse_accurate inverse_last_column inverse_translation_accurate inverse_product_accurate inverse_product_border inverse_identity_partial inverse_small_row inverse_identity_violated","Partial: the product is near the identity only without a translation (the fourth row is minus the inverse's rows, not columns, times the translation: C40 and inverse_identity_violated), and rows shorter than 0.001 are only transposed (inverse_small_row).")
claim("C162","partial","VectorText","float_text_is_components float_stream_is_components float_text_specials float_text_apart float_text_lossy_violated","The C library's %f and %g are modelled by their definition (Model/FloatText). Partial: the text does not determine the vector (float_text_lossy_violated).")
claim("C163","partial","XmlError","messages_say offset_right_iff message_identifies offset_violated","Violated as a position: the code assumes a header of 25 characters, pugixml writes one of 23 (offset_violated). Nodes without a name or added after parsing are not covered: the code subtracts pointers into different arrays (undefined).")
claim("C164","partial","PyInit","types_registered entries refs_exact refs_leaked_violated failure_silent names_reachable_violated","Violated: when the module does not take a type its reference is leaked; InitType goes on after failures and returns nothing, with an exception set (failure_silent); eight of the eleven names hold colons, so Python code reaches these types by getattr only.")
