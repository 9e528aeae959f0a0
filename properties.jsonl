{"id": "C01", "title": "Unsigned base-128 integers survive a write/read cycle", "statement": "Writing any 64-bit unsigned value as buint128 and reading it back yields the same value, consumes exactly the bytes that were written (whatever follows them in the stream), and never emits more than 9 bytes.", "quantifier": "every uint64 value and every continuation of the stream", "why_tests_cant": "2^64 values and arbitrary trailing bytes; the 9th byte follows a different rule", "anchors": ["datas/base_128.hpp: buint128::Write, buint128::Read"]}
{"id": "C02", "title": "Signed base-128 integers survive a write/read cycle", "statement": "Writing any 64-bit signed value as bint128 and reading it back yields the same value and leaves the stream exactly after the written bytes.", "quantifier": "every int64 value and every continuation of the stream", "why_tests_cant": "2^64 values; failures only sit in extreme magnitude ranges", "anchors": ["datas/base_128.hpp: bint128::Write, bint128::Read"]}
{"id": "C03", "title": "Endian swap is byte reversal and its own inverse", "statement": "Swapping the endianness of a 2, 4 or 8 byte scalar reverses its byte representation; swapping twice restores it; for arrays and aggregates each scalar is swapped in place and nothing is permuted across elements.", "quantifier": "every 16/32/64-bit pattern and every array of them", "why_tests_cant": "2^64 patterns, arbitrary array length", "anchors": ["datas/endian.hpp: _fbswap, FByteswapper"]}
{"id": "C04", "title": "Bit-field members are independent storage cells", "statement": "In a packed bit field, storing a value in one member and reading it back gives the value truncated to the member width, and no other member changes; the initial layout assigns adjacent, non-overlapping bit ranges in declaration order.", "quantifier": "every list of member widths that fits the storage word, every member, every stored word and value", "why_tests_cant": "all layouts x all words x all values", "anchors": ["datas/bitfield.hpp: BitFieldType, BitMember", "datas/internal/bitfield.inl: BitField, GetMask"]}
{"id": "C05", "title": "Bit-field endian conversion preserves every declared member", "statement": "Converting a bit field to foreign-endian layout and back gives the same value for every declared member, and bits outside declared members come back as zero.", "quantifier": "every layout and every stored word", "why_tests_cant": "all layouts x all words", "anchors": ["datas/bitfield.hpp: SwapEndian", "datas/internal/bitfield.inl: SwapBitField"]}
{"id": "C06", "title": "Flags behave as a set of enumerators", "statement": "After any history of +=, -=, Set, and whole-value assignment on a Flags object, testing an enumerator answers exactly whether it was last added or removed; equality of two Flags objects is equality of those sets.", "quantifier": "every sequence of flag operations with in-range enumerators", "why_tests_cant": "unbounded histories", "anchors": ["datas/flags.hpp: Flags"]}
{"id": "C07", "title": "XOR encoding is an involution that keeps length", "statement": "Encoding a buffer with a non-empty key and decoding with the same key restores every byte; byte i depends only on key byte i mod keysize; the buffer length never changes.", "quantifier": "every buffer and every non-empty key", "why_tests_cant": "unbounded buffers and keys", "anchors": ["datas/encrypt/xorenc.hpp"]}
{"id": "C08", "title": "Blowfish block decryption inverts encryption", "statement": "For every key schedule, decoding an encoded 64-bit block gives back the block, and vice versa, so encryption is a bijection on blocks.", "quantifier": "every p-box/s-box content and every block", "why_tests_cant": "2^64 blocks for every one of the possible keys", "anchors": ["datas/encrypt/blowfish.cpp: EncodeBlock, DecodeBlock"]}
{"id": "C09", "title": "Every Blowfish chaining mode decodes what it encodes", "statement": "In each of the modes ECB, CBC, PCBC, CFB and OFB, decoding an encoded buffer with the same key and vector restores the buffer, the trailing size%8 bytes are never touched, and the length is unchanged.", "quantifier": "every buffer length, content, key schedule and vector, all five modes", "why_tests_cant": "unbounded message length", "anchors": ["datas/encrypt/blowfish.cpp: Encode, Decode"]}
{"id": "C10", "title": "Jenkins one-at-a-time hash follows its defining recurrence", "statement": "The hash of a string is a function of its characters only, equals the 64-bit-state recurrence applied left to right, can be computed incrementally, and the hash comparison operators form a strict total order consistent with equality.", "quantifier": "every string; every pair and triple of hashes", "why_tests_cant": "unbounded strings", "anchors": ["datas/jenkinshash.hpp: JenkinsHash_, JenHash"]}
{"id": "C11", "title": "Every byte of the key takes part in JenkinsHash3", "statement": "For every string length, changing some byte of the input can change the hash: no byte position is ignored by the function.", "quantifier": "every string length and byte position", "why_tests_cant": "unbounded lengths; only particular lengths are affected", "anchors": ["datas/jenkinshash3.hpp: JenkinsHash3_"]}
{"id": "C12", "title": "String-view search finds the first occurrence", "statement": "find(needle, pos) returns the smallest index >= pos at which needle occurs and npos when there is none; rfind returns the largest such index <= pos.", "quantifier": "every haystack, needle and start position", "why_tests_cant": "unbounded strings", "anchors": ["datas/internal/string_view.inl: find, rfind"]}
{"id": "C13", "title": "String-view comparison is lexicographic and total", "statement": "compare returns 0 exactly for equal contents, its sign gives a strict total order (antisymmetric, transitive), equal to lexicographic order with shorter-prefix-first, and the relational operators agree with it.", "quantifier": "every pair/triple of strings", "why_tests_cant": "unbounded strings", "anchors": ["datas/internal/string_view.inl: compare, operator==, operator<"]}
{"id": "C14", "title": "String-view character-set searches", "statement": "find_first_of / find_last_of return the extreme index whose character is in the given set, find_first_not_of / find_last_not_of the extreme index whose character is not in the set, or npos.", "quantifier": "every haystack, character set and start position", "why_tests_cant": "unbounded strings and sets", "anchors": ["datas/internal/string_view.inl: find_first_of, find_last_of, find_first_not_of, find_last_not_of"]}
{"id": "C15", "title": "String-view slicing is exact and bounds checked", "statement": "substr(pos,n) is exactly the characters pos..min(pos+n,size), copy writes at most n characters equal to that substring, remove_prefix/remove_suffix drop exactly n characters, and invalid positions throw instead of reading out of bounds.", "quantifier": "every string, position and count", "why_tests_cant": "unbounded strings and all positions", "anchors": ["datas/internal/string_view.inl: substr, copy, remove_prefix, remove_suffix"]}
{"id": "C16", "title": "A path splits into folder, name and extension that concatenate back", "statement": "For every path, folder + name + extension is the path with backslashes normalised to '/', the name contains no '/', the extension is empty or starts with the last '.', and loading a new path forgets the old one.", "quantifier": "every path string and every history of loads", "why_tests_cant": "unbounded strings; dots in folders, leading dots, empty paths", "anchors": ["datas/fileinfo.hpp: AFileInfo::Load, GetFolder, GetFilename, GetExtension, GetFullPathNoExt, GetFilenameExt"]}
{"id": "C17", "title": "Exploding a path lists exactly its components", "statement": "The exploded list joined with '/' gives the path back (up to one leading and one trailing slash), and no listed component contains '/'.", "quantifier": "every non-empty path", "why_tests_cant": "unbounded strings", "anchors": ["datas/fileinfo.hpp: AFileInfo::Explode"]}
{"id": "C18", "title": "Typed stream writes are read back identically in either endianness", "statement": "Writing any sequence of scalars with endian swapping on or off and reading the same sequence of types with the same swap setting yields the same values and ends at the same position.", "quantifier": "every sequence of scalar values of widths 1,2,4,8 and every swap setting", "why_tests_cant": "unbounded sequences and values", "anchors": ["datas/binwritter_ref.hpp: Write", "datas/binreader_ref.hpp: Read"]}
{"id": "C19", "title": "Counted containers and C strings survive the stream", "statement": "A container written with a count prefix is read back equal whenever its length fits the count type, and a zero-free string written with terminator is read back equal and leaves the stream just past the terminator.", "quantifier": "every element list and every count width; every zero-free string and every following byte sequence", "why_tests_cant": "unbounded lengths, truncating counts", "anchors": ["datas/binwritter_ref.hpp: WriteContainerWCount, WriteT", "datas/binreader_ref.hpp: ReadContainer, ReadString"]}
{"id": "C20", "title": "Push/Pop and relative origins navigate consistently", "statement": "Pop always returns the stream to the position of the matching Push whatever seeks happened or origins changed in between; Tell after an absolute Seek(p) is p under any relative origin; resetting the origin restores absolute addressing.", "quantifier": "every history of seeks, skips, pushes, pops and origin changes", "why_tests_cant": "unbounded histories", "anchors": ["datas/internal/bincore_navi.hpp: BinStreamNavi"]}
{"id": "C21", "title": "Padding lands on the next aligned position", "statement": "ApplyPadding(a) with a power-of-two a moves the stream to the least multiple of a not before the current position, the writer filling the gap with zero bytes and the reader skipping it, so writer and reader stay in step; GetPadding computes exactly that distance.", "quantifier": "every position and every power-of-two alignment", "why_tests_cant": "unbounded positions and alignments", "anchors": ["datas/binwritter_ref.hpp: ApplyPadding, Skip", "datas/binreader_ref.hpp: ApplyPadding, Skip", "datas/supercore.hpp: GetPadding"]}
{"id": "C22", "title": "Power-of-two test and whitespace trimming", "statement": "IsPow2(n) holds exactly for powers of two (and the documented zero case); trimming removes exactly the maximal leading/trailing run of blanks, keeps interior characters and is idempotent.", "quantifier": "every natural number / every string", "why_tests_cant": "unbounded inputs", "anchors": ["datas/supercore.hpp: IsPow2, SkipStartWhitespace, SkipEndWhitespace, TrimWhitespace"]}
{"id": "C23", "title": "Setting an integer field saturates and reports", "statement": "Assigning text to an integer field of any width stores the number when it fits, otherwise stores the nearest bound and reports out-of-range (sign mismatch for negative text on unsigned fields); malformed text leaves the field unchanged and reports invalid format.", "quantifier": "every width 1,2,4,8, signedness and every input text", "why_tests_cant": "unbounded text, all magnitudes", "anchors": ["datas/reflector.cpp: SetNumber"]}
{"id": "C24", "title": "Assigning a field touches only that field", "statement": "A successful or failed assignment to a reflected field changes no byte of the object outside the field's declared extent, and an unknown field name changes nothing and reports failure.", "quantifier": "every class layout, every field, every input text", "why_tests_cant": "all layouts x texts", "anchors": ["datas/reflector.cpp: SetReflectedValue", "datas/reflector.hpp: Reflector::SetReflectedValue"]}
{"id": "C25", "title": "Enum fields round-trip through their names", "statement": "Printing an enum field that holds a registered value gives one of the names of that value, assigning that name restores the value; an unknown name leaves the field unchanged and reports invalid format.", "quantifier": "every registered enum table, value and input text", "why_tests_cant": "all tables", "anchors": ["datas/reflector.cpp: SetEnum, PrintReflectedValue", "datas/internal/reflector_enum.hpp: ReflectedEnum"]}
{"id": "C26", "title": "Enum-flag fields round-trip through their text", "statement": "Printing a flags field and assigning the printed text to any flags field of the same type restores exactly the registered bits; the text 'NULL' stands for the empty set.", "quantifier": "every flag table and every stored word", "why_tests_cant": "2^64 words x tables", "anchors": ["datas/reflector.cpp: SetEnumFlags, PrintReflectedValue"]}
{"id": "C27", "title": "Array fields take exactly the listed elements", "statement": "Assigning '{a, b, c}' assigns element i from the i-th comma-separated item at nesting level one, in order, never writes past the array, and reports when too many items are given.", "quantifier": "every array length, nesting and input text", "why_tests_cant": "unbounded nesting and lengths", "anchors": ["datas/reflector.cpp: SetReflectedArray"]}
{"id": "C28", "title": "Binary save and load of reflected objects is a round trip", "statement": "Loading the bytes saved from an object into another object of the same class gives equal field values for every supported field kind (integers, floats, bools, enums, strings, arrays, vectors, nested classes at any depth) and consumes exactly those bytes.", "quantifier": "every class description, every object, every continuation of the stream", "why_tests_cant": "unbounded nesting, lengths, integer ranges", "anchors": ["datas/reflector_io.cpp: ReflectorBinUtil::Save, ReflectorBinUtil::Load, SaveClass, LoadClass"]}
{"id": "C29", "title": "Binary load tolerates unknown fields", "statement": "Loading data whose class hash or field count does not match changes nothing, and an unknown field hash is skipped without disturbing the fields after it; in all these cases the stream position is well defined.", "quantifier": "every saved stream and every target class", "why_tests_cant": "all pairs of schemas", "anchors": ["datas/reflector_io.cpp: ReflectorBinUtil::Load, LoadClass"]}
{"id": "C30", "title": "The threaded queue runs every task exactly once with bounded concurrency", "statement": "RunThreadedQueue hands out every task exactly once, never runs more tasks at a time than worker slots, returns only after all have finished, and does return whenever tasks finish.", "quantifier": "every number of tasks, every hardware thread count and every completion schedule", "why_tests_cant": "all schedules", "anchors": ["datas/multi_thread.hpp: RunThreadedQueue"]}
{"id": "C31", "title": "A hybrid allocator never frees or double-hands out foreign memory", "statement": "Memory passed in from outside is never released by the allocator, memory it allocated is released exactly once, and two live allocations never share storage.", "quantifier": "every history of allocate/deallocate on a hybrid allocator", "why_tests_cant": "unbounded histories", "anchors": ["datas/allocator_hybrid.hpp: hybrid_allocator", "datas/deleter_hybrid.hpp: deleter_hybrid"]}
{"id": "C32", "title": "Pointer fixups are applied once and resolve to root plus offset", "statement": "Fixing up a stored offset makes the pointer resolve to root+offset, fixing the same pointer again is refused and changes nothing, null offsets stay null, and 32-bit relative pointers resolve exactly when the distance fits.", "quantifier": "every set of pointers, offsets, roots and repeated fixup histories", "why_tests_cant": "unbounded histories and addresses", "anchors": ["datas/pointer.hpp: esPointerX64/X86 Fixup"]}
{"id": "C33", "title": "A ZIP archive is indexed completely and entries are returned verbatim", "statement": "Opening an archive made of stored entries indexes every entry under its name, and reading an entry returns its bytes exactly; compressed, encrypted or unknown blocks are refused instead of misread.", "quantifier": "every list of entries (names, contents, extra fields) and trailing central directory", "why_tests_cant": "unbounded archives", "anchors": ["datas/zip_vfs.hpp: ZIPIOContext", "formats/ZIP.hpp"]}
{"id": "C34", "title": "Swizzled texture addressing is a bijection", "statement": "For power-of-two texture dimensions the swizzle address maps the pixel coordinates one-to-one onto 0..width*height-1, interleaving coordinate bits of the common square part.", "quantifier": "every power-of-two width/height in the supported range and every coordinate", "why_tests_cant": "millions of coordinates for each of ~100 size pairs", "anchors": ["formats/addr_ps3.hpp: MortonSettings, MortonAddr"]}
{"id": "C35", "title": "Block decoders write each texel of the block once from its own index bits", "statement": "Decoding a BC2/BC3/BC4/BC5 block writes exactly the 16 texels of that block, each from its own bit field of the block, and writes stay inside the image and inside the addressed channel.", "quantifier": "every block content, every block coordinate and every image size multiple of 4", "why_tests_cant": "2^64 blocks x sizes", "anchors": ["formats/BlockDecoder.inl", "formats/BlockDecoder.h"]}
{"id": "C36", "title": "DDS mip layout is contiguous", "statement": "The computed mip offsets and sizes tile the buffer without gap or overlap, the first offset is 0, the total equals the sum, and every mip of a block-compressed texture holds a whole number of blocks.", "quantifier": "every width, height, bits-per-pixel, mip count and compression kind", "why_tests_cant": "all sizes and counts", "anchors": ["formats/DDS.hpp: ComputeBufferSize"]}
{"id": "C37", "title": "DDS legacy format conversion is a partial inverse", "statement": "Converting a DX10 format to the legacy pixel format and back yields the same format (up to the documented sRGB/premultiplied handling), and conversion refuses formats it cannot represent.", "quantifier": "every DXGI format and alpha mode", "why_tests_cant": "finite table, but tests cover only samples", "anchors": ["formats/DDS.hpp: ToLegacy, FromLegacy"]}
{"id": "C38", "title": "Vertex format sampling reads element i at its own stride offset", "statement": "Sampling n elements with stride s produces n results where result i depends only on the bytes starting at i*s within the element's own size, integer channels are exact bit slices (sign-extended when signed), and no byte outside the n elements is read.", "quantifier": "every buffer, stride, count and supported packed format", "why_tests_cant": "unbounded buffers, all bit patterns", "anchors": ["uni/internal/format_full.hpp: FormatCodec Sample, GetValue", "uni/format.hpp"]}
{"id": "C39", "title": "Half-float decoding is exact", "statement": "Decoding any 16-bit half float gives the IEEE value: sign, normal, subnormal, zero, infinity.", "quantifier": "every 16-bit pattern", "why_tests_cant": "tests sample a few patterns; failures lie in subnormals and negative values", "anchors": ["datas/float.hpp: esFloat"]}
{"id": "C40", "title": "Matrix algebra laws", "statement": "Matrix transpose is an involution and reverses products, product is associative with identity, the inverse of a rigid transform composes with it to identity, and rotating a point by the matrix built from a quaternion equals quaternion rotation.", "quantifier": "all matrices and vectors over the reals", "why_tests_cant": "infinite domain; floating tests only sample", "anchors": ["datas/matrix44.cpp: esMatrix44"]}
{"id": "C41", "title": "Directory scanning lists exactly the matching files", "statement": "A scan appends exactly the files in the tree whose name contains one of the filters (all files when no filter is set), each with its full path, keeping earlier results.", "quantifier": "every directory tree and filter set", "why_tests_cant": "unbounded trees", "anchors": ["datas/directory_scanner.cpp: DirectoryScanner::Scan"]}
{"id": "C42", "title": "The log printer delivers each message intact to every sink once", "statement": "Each flushed message is delivered to every registered sink exactly once, containing exactly the text inserted since the last flush plus its severity prefix, and registering the same sink twice does not duplicate output.", "quantifier": "every history of inserts, flushes and registrations", "why_tests_cant": "unbounded histories", "anchors": ["datas/master_printer.cpp: MasterPrinterThread"]}
{"id": "C43", "title": "Virtual lists iterate all elements in order", "statement": "Range iteration over any uni list visits At(0), At(1), ..., At(Size()-1) in order and stops.", "quantifier": "every list size up to the index type", "why_tests_cant": "unbounded sizes", "anchors": ["uni/virtual_iterator.hpp: VirtualIterator", "uni/list.hpp: List"]}
{"id": "C44", "title": "Field lookup by name hash, then by alias", "statement": "Looking up a field by name returns the first declared field of that name; an alias finds its field only when no field has that name; unknown names report not found.", "quantifier": "every class table and every name", "why_tests_cant": "all tables", "anchors": ["datas/reflector.cpp: GetReflectedType"]}
{"id": "C45", "title": "Enum value assignment follows declaration text", "statement": "Enumerators without explicit value get previous value plus one starting at zero, explicit ones their literal value, so the registered table mirrors the C++ enum declaration.", "quantifier": "every enumerator list", "why_tests_cant": "unbounded lists", "anchors": ["datas/internal/reflector_enum_reg.hpp"]}
{"id": "C46", "title": "Bit-field reflected members accept their value range", "statement": "Assigning text to a reflected bit-field member stores the value when it fits the member width (signed members accept negative numbers), saturates otherwise, and does not disturb other members.", "quantifier": "every width, signedness and text", "why_tests_cant": "all widths and texts", "anchors": ["datas/reflector.cpp: BitFieldMember handling, LimitProxy"]}
{"id": "C47", "title": "Reflected class descriptions survive database save/load", "statement": "Saving the reflected type database and loading it gives the same classes, fields, names and alias hashes.", "quantifier": "every set of classes", "why_tests_cant": "unbounded tables", "anchors": ["datas/reflector_io.cpp: ReflectorIO::Save, ReflectorIO::Load"]}
{"id": "C48", "title": "RIFF chunk traversal visits every chunk", "statement": "Stepping from a chunk to the next in a RIFF/WAVE buffer lands on the header of the following chunk.", "quantifier": "every sequence of chunks", "why_tests_cant": "unbounded chunk lists", "anchors": ["formats/WAVE.hpp: WAVEGenericHeader::Next"]}
{"id": "C49", "title": "Vector component operations act per lane", "statement": "Arithmetic, comparison and endian conversion of 2, 3 and 4 component vectors act lane by lane, dot is symmetric and bilinear, cross product is orthogonal to its operands and antisymmetric.", "quantifier": "all vectors over a commutative ring / all bit patterns", "why_tests_cant": "infinite domain", "anchors": ["datas/vectors.hpp", "datas/vectors_simd.hpp"]}
{"id": "C50", "title": "Every byte of the Blowfish key takes part in the key schedule", "statement": "For every key, changing any key byte that the cipher consumes changes the packed key words that are mixed into the P-array: key words are the big endian packing of consecutive key bytes, cyclically.", "quantifier": "all keys and all key byte values", "why_tests_cant": "Tests use ASCII keys; the failure needs bytes >= 0x80 at particular positions.", "anchors": ["datas/encrypt/blowfish.cpp SetKey"]}
{"id": "C51", "title": "Names that differ in one character have different hashes", "statement": "Two field or class names of equal length that differ in exactly one character never get the same name hash, so neither shadows the other in hash lookups.", "quantifier": "all pairs of names differing in one character", "why_tests_cant": "Collisions are a one in 2^32 event for sampled names.", "anchors": ["datas/jenkinshash.hpp JenHash"]}
{"id": "C52", "title": "FourCC constants equal the four bytes as they appear in a file", "statement": "CompileFourCC of any four characters is the 32-bit number whose little endian memory image is those four characters, so comparing it with a value read from a file compares the tags.", "quantifier": "all four-character tags", "why_tests_cant": "The static assertion checks one ASCII tag; all 2^32 tags matter (file signatures contain bytes above 0x7f).", "anchors": ["datas/supercore.hpp CompileFourCC"]}
{"id": "C53", "title": "Hex digit lookup accepts exactly the hex digits", "statement": "Looking up a character in the hex table gives the digit value for 0-9, a-f, A-F and the invalid mark for every other character.", "quantifier": "all characters", "why_tests_cant": "The assertions check six digits, not that other characters are rejected.", "anchors": ["datas/supercore.hpp atohLUT"]}
{"id": "C54", "title": "Legacy DDS channel masks describe the channels of the format", "statement": "When a texture format is written as legacy channel masks, the red, green, blue and alpha masks select the bits where the format stores these channels, so another reader sees the same colours.", "quantifier": "every format that is converted to masks and every header", "why_tests_cant": "a wrong mask pair is self-consistent: the library reads its own files back unchanged, so a round-trip test passes", "anchors": ["formats/DDS.hpp: ToLegacy, FromLegacy, DDSFormat_*"]}
{"id": "C55", "title": "Half-float encoding inverts decoding", "statement": "Encoding the single that has the value of a half float gives back that half float, for the scalar and the vector encoder.", "quantifier": "every half float that is not a NaN", "why_tests_cant": "tests encode a handful of values; whole ranges (0.25, 1.0, -1.0) come back as zero", "anchors": ["datas/float.hpp: esFloat::FromFloat, FromVector4, ToVector4"]}
{"id": "C56", "title": "Normalised vertex channels map zero to 0.0 and full scale to exactly 1.0", "statement": "A normalised channel of a vertex element is returned as a single-precision number: 0 gives 0.0, the largest channel value exactly 1.0 (for signed channels also the smallest symmetric value exactly -1.0), larger channel values never give smaller results, and no result lies outside [0, 1] (signed: [-1, 1]).", "quantifier": "every element's bytes, every packed format and every channel", "why_tests_cant": "2^32 channel values per format, with single-precision rounding in both the conversion and the product; tests check a few", "anchors": ["uni/internal/format_full.hpp: FormatCodec_t<UNORM>::GetValue, FormatCodec_t<NORM>::GetValue", "datas/supercore.hpp: GetFraction"]}
{"id": "C57", "title": "Blowfish is the published cipher", "statement": "For every initial table, every key and every block, setting the key runs Schneier's key schedule (P entries xored with the cycled key, then P and S entries replaced pairwise by successive encryptions of the zero block) and encrypting a block is the published 16-round Feistel network with the F function ((S0[a]+S1[b])^S2[c])+S3[d]; only the byte order of the two halves depends on the endian option.", "quantifier": "all keys of 7-bit characters (C50 covers the others), all blocks, both byte orders, all initial tables", "why_tests_cant": "2^64 blocks times unbounded keys; the repository's tests only check encode followed by decode, which any Feistel network passes", "anchors": ["datas/encrypt/blowfish.cpp: BlowfishEncoder::SetKey, EncodeBlock, DecodeBlock"]}
{"id": "C58", "title": "JenkinsHash3_ is Bob Jenkins' lookup3", "statement": "JenkinsHash3_(text, seed) equals hashword of lookup3.c applied to the text read as little-endian 32-bit words padded with zero bytes, so hashes agree with those other tools (game files) compute.", "quantifier": "every text and every seed", "why_tests_cant": "tests check the hash of a few literals; lengths 24, 36, 48, ... take another path", "anchors": ["datas/jenkinshash3.hpp: JenkinsHash3_, JenkinsHash3_::MutateKey"]}
{"id": "C59", "title": "Element access of reflected lists", "statement": "Reading element i (or component e of element i, or a single flag, or the sub-class i) of a reflected list member returns exactly that element, an empty result when there is no such element; assigning element i changes exactly that element and reading it back gives the assigned number.", "quantifier": "every list member of any length, width and offset, every index, every object and every assigned literal", "why_tests_cant": "indices, lengths, element widths and contents are unbounded; tests look at one class", "anchors": ["datas/reflector.cpp: Reflector::GetReflectedValue(size_t, size_t), GetReflectedValue(size_t, size_t, size_t), GetReflectedSubClass", "datas/internal/reflector.inl: SetReflectedValue(JenHash, string_view, size_t)"]}
{"id": "C60", "title": "Assigning boolean texts", "statement": "Assigning a text to a bool member stores true exactly when the text, after leading blanks, begins with 'true' in any letter case, and stores false otherwise; the call succeeds exactly when the text begins with 'true' or 'false' in any case.", "quantifier": "every text and every object", "why_tests_cant": "infinitely many texts; tests use a handful", "anchors": ["datas/reflector.cpp: SetBoolean, SetReflectedMember"]}
{"id": "C61", "title": "Saving a reflected object as XML and loading it", "statement": "Saving an object with ReflectorXMLUtil::Save and loading the document with ReflectorXMLUtil::Load into any other instance of the class gives every member, through all nested member classes and lists of classes, the value that was saved, and leaves all other memory of the receiving object as it was. This holds with and without member names in the program, behind other nodes of the document, and in a plain node.", "quantifier": "every class (any number of members, any nesting of member classes), every object whose values have a text that denotes them, every receiving object, every surrounding document", "why_tests_cant": "classes, values, nesting and documents are unbounded; tests use one class and one value", "anchors": ["datas/reflector_xml.cpp: ReflectorXMLUtil::Save, ReflectorXMLUtil::Load, MakeNode, GetName", "datas/reflector.cpp: GetReflectedPrimitive, SetReflectedMember"]}
{"id": "C62", "title": "Loading an arbitrary XML document", "statement": "ReflectorXMLUtil::Load applied to any document changes nothing but members of the object (and of the objects in it), ignores nodes that name no member, changes nothing when there is no node of the class, and has defined behaviour.", "quantifier": "every document (any tree of nodes, names and texts), every class of supported members, every object", "why_tests_cant": "documents come from users and are arbitrary trees; tests load what was saved", "anchors": ["datas/reflector_xml.cpp: ReflectorXMLUtil::Load", "datas/reflector.cpp: SetReflectedMember, GetReflectedSubClass"]}
{"id": "C63", "title": "Saving with SaveV2 and loading with LoadV2", "statement": "Saving an object with ReflectorXMLUtil::SaveV2 (strings as attributes or not) behind any nodes that are not nodes of its class and loading the document with LoadV2 into any other instance of the class gives every member, through all nested member classes and lists of classes, the value saved, and changes nothing else. LoadV2 of any other document writes to members only and has defined behaviour.", "quantifier": "every class, every object whose values have a text that denotes them, every receiving object, every surrounding document", "why_tests_cant": "classes, values, nesting and documents are unbounded", "anchors": ["datas/reflector_xml.cpp: ReflectorXMLUtil::SaveV2a, ReflectorXMLUtil::LoadV2", "datas/reflector.cpp: SetReflectedValue(reflType, value, subID), SetReflectedValue(reflType, value, subID, element), GetReflectedValue(id, subID, element)"]}
{"id": "C64", "title": "Registration macros visit every listed item", "statement": "The preprocessor loops behind REFLECTOR_CREATE and REFLECTOR_REGISTER apply their action to every item of the argument list exactly once, in order, with its position; a list that is too long is rejected by the compiler instead of being cut.", "quantifier": "every list of items of any length", "why_tests_cant": "Tests register a handful of members; the loops are generated by hand for 89 lengths.", "anchors": ["datas/macroLoop.hpp VA_NARGS StaticFor StaticForArgID"]}
{"id": "C65", "title": "Generated member tables describe the class", "statement": "For every class registered with REFLECTOR_CREATE, each listed member is found under its name, at its own address, with its kind, element count and element size: each array element and vector component is read and written at its C++ address, so assigning one member by name changes no other member.", "quantifier": "every list of members of every reflectable type at every offset", "why_tests_cant": "The table fields are 8 and 16 bits wide and lists nest; the tests contain small classes only.", "anchors": ["datas/internal/reflector_type.hpp BuildReflType _getType", "datas/internal/reflector_class.hpp REFLECTOR_CREATE", "datas/vectors.hpp CompileVectorHash_", "datas/flags.hpp _getType", "datas/refl_array.hpp"]}
{"id": "C66", "title": "Typed setters store the number given", "statement": "SetReflectedValueInt, SetReflectedValueUInt and SetReflectedValueFloat store the number into the member (or the element of a list member) of that kind, so that reading gives it back, report numbers that do not fit, and refuse every other kind of member without changing anything.", "quantifier": "every member kind, width, element and 64-bit number", "why_tests_cant": "The number range times widths times element positions cannot be enumerated.", "anchors": ["datas/reflector.cpp SetReflectedValueInt SetReflectedValueUInt SetReflectedValueFloat", "datas/internal/reflector.inl"]}
{"id": "C67", "title": "Name and value pairs of members", "statement": "GetReflectedPair gives the alias of a member when aliases are asked for and it has one, otherwise its name, and its value, framed by the two parts of its description (split at the first '%') when formatting is asked for; an index out of range gives an empty pair, and the call is defined for every registered class.", "quantifier": "every class (plain, VARNAMES or EXTENDED), member, description and setting", "why_tests_cant": "Null name tables and empty description parts are combinations the tests do not reach.", "anchors": ["datas/internal/reflector.inl GetReflectedPair", "datas/internal/reflector_class.hpp _GetReflDescPart _REFLECTOR_DESCBUILDER", "datas/settings_manager.hpp CreateLog"]}
{"id": "C68", "title": "Members of a registered bit field are read by name", "statement": "Reading a member of a bit field registered with REFLECTOR_CREATE(..., BITFIELD, ...) by name gives the number held in the bits of that member, whichever members were listed and in whichever order.", "quantifier": "every bit layout, every subset and order of registered members, every word", "why_tests_cant": "The index used differs from the position in the table only for partial or reordered lists.", "anchors": ["datas/internal/reflector_type.hpp BuildBFReflType", "datas/internal/reflector.inl GetReflectedValue"]}
{"id": "C69", "title": "Folders are made for every file", "statement": "After mkdirs(path) every folder of the path exists, and after mkdirs(base, files, fc) every folder of every file exists below the base folder; nothing that existed is removed or changed, nothing else is created (not the files themselves), and a non-directory standing in the place of a folder is the only reason for a folder to be missing.", "quantifier": "every file system tree, working directory, base and set of paths (slashes, backslashes, doubled slashes, dots)", "why_tests_cant": "The order of the calls, shared prefixes and the state of the file system before form an unbounded space.", "anchors": ["datas/stat.hpp mkdirs es::mkdir", "datas/fileinfo.hpp AFileInfo::GetFullPath"]}
{"id": "C70", "title": "FileType tells directories from files", "statement": "FileType reports Directory exactly for directories, File exactly for regular files, Error exactly for paths that cannot be examined and Invalid for everything else, whatever the permission bits.", "quantifier": "every file type and mode", "why_tests_cant": "Sockets and devices are not at hand in a test, and modes have 4096 permission patterns.", "anchors": ["datas/stat.hpp FileType", "datas/internal/stat_ix.inl FileType"]}
{"id": "C71", "title": "A wrong header is named in the error", "statement": "InvalidHeaderError shows the magic number it was given: the characters themselves when they are letters and digits, otherwise every byte in hexadecimal, so that the message identifies the number; building the message is always defined.", "quantifier": "every 32 and 64 bit magic number", "why_tests_cant": "2^32 numbers, and the defect is a read behind the number.", "anchors": ["datas/except.hpp InvalidHeaderError DecompileFourCC"]}
{"id": "C72", "title": "ZIP records are exchanged in the published layout", "statement": "Write of each ZIP record puts its members in the order and widths of PKWARE's APPNOTE, without the gaps the struct has in memory, and Read gives every member its value from such bytes, leaves the stream behind the record and refuses shorter streams; what was written is read back.", "quantifier": "every record type, every member value, any struct content before and any data behind", "why_tests_cant": "Member values range over 8 to 64 bit numbers each.", "anchors": ["formats/ZIP.hpp", "formats/ZIP_istream.inl", "formats/ZIP_ostream.inl", "datas/internal/bincore.hpp getBlockSize"]}
{"id": "C73", "title": "Unicode conversions keep the text", "statement": "es::ToUTF1632 turns UTF-8 into the UTF-16 units of the same text, std::to_string of 16 and 32 bit strings (with or without terminator) gives the UTF-8 of the same text, and text converted to wide characters and back is unchanged.", "quantifier": "every sequence of Unicode scalar values", "why_tests_cant": "1,112,064 characters in sequences of any length.", "anchors": ["datas/unicode.hpp _utf8cvt ToUTF8 ToUTF1632", "datas/tchar.hpp to_string to_wstring"]}
{"id": "C74", "title": "Python lists and enums behave like Python's", "statement": "Iterating a list exported to Python yields every item once in order, any number of times and nested, and keeps the list alive; list[i] is item i or IndexError; enum names give their values and other names raise AttributeError.", "quantifier": "every list, index, number and nesting of loops, reference count, enum", "why_tests_cant": "Reference counts and iteration state depend on the history of all loops.", "anchors": ["uni/python/pylist.hpp UniPy::List", "uni/python/pyenum.hpp UniPy::Enum"]}
{"id": "C75", "title": "Help and log list every setting", "statement": "GetHelp prints for every setting its name, description, the values of enums and the settings of member classes one level deeper; CreateLog lists every setting with its alias or name and its current value.", "quantifier": "every settings class, nesting, registered enum and value", "why_tests_cant": "Classes of any number of members and nesting depth.", "anchors": ["datas/settings_manager.hpp GetHelp CreateLog"]}
{"id": "C76", "title": "Colours of BC1, BC2 and BC3 texels are interpolated from the block's two end colours", "statement": "Each colour channel of each decoded texel is, by its two index bits, the first end colour, the second, or the colour one third or two thirds of the way between them, scaled to 0..255 and cut off (one lower only where the scaled value is a whole number); no conversion is out of range. In blocks with transparency the third colour is the middle of the ends.", "quantifier": "every block content, position and image size; all 2^32 pairs of end colours", "why_tests_cant": "2^32 pairs of end colours in floating point", "anchors": ["formats/BlockDecoder.inl:_DecodeBC1Block", "formats/BlockDecoder.inl:_DecodeBC1BlockA", "formats/BlockDecoder.h:DecodeRGB565Block"]}
{"id": "C77", "title": "Normalised and unpacked vertex data are accurate", "statement": "Sampling a normalised channel gives the stored number over the largest number of its width with a relative error of at most 2^-22, and unpacking by multiply, add or multiply-add gives each lane of each element the value of that formula up to the rounding of one product and one sum; sampling and unpacking together give bounding box positions within a stated error.", "quantifier": "every normalised format, channel, buffer, element count, stride and bounding box, all 2^32 stored numbers", "why_tests_cant": "The error bound ranges over all stored numbers and all floats of the bounding box.", "anchors": ["uni/internal/model.inl PrimitiveDescriptor::Resample", "uni/uni_format.cpp", "uni/model.hpp UnpackDataType_e"]}
{"id": "C78", "title": "Sampling a motion track from Python", "statement": "get_values(list) returns one value per time, in order, each the value of the track at that time in the form of its type; something that is no list of numbers is refused; the frame rate read back is the one set.", "quantifier": "every track, list of times and frame rate", "why_tests_cant": "Lists of any length and every track.", "anchors": ["uni/python/pymotion.inl"]}
{"id": "C79", "title": "Bones in Python", "statement": "Following parent from a bone visits its ancestors in order up to the root and deletes no bone; bones compare equal exactly when they have the same index and name; reading attributes any number of times neither loses references nor memory.", "quantifier": "every skeleton, bone and sequence of reads", "why_tests_cant": "Reference counts depend on the history of all reads.", "anchors": ["uni/python/pyskeleton.inl"]}
{"id": "C80", "title": "Errors of the scene interfaces can be handled", "statement": "Calling an accessor a class does not provide raises an exception derived from std::exception that tells a forgotten overload from an unsupported call by type and message; so does modifying a read-only object.", "quantifier": "every accessor, track type and object name", "why_tests_cant": "All interface classes of all users.", "anchors": ["uni/internal/exception.hpp", "uni/internal/motion.inl", "uni/internal/skeleton.inl"]}
{"id": "C81", "title": "The correction matrix is described by its text", "statement": "The text shown for a correction matrix tells the axis and direction each row maps to, so different matrices have different texts.", "quantifier": "every matrix of floats", "why_tests_cant": "All float matrices.", "anchors": ["MAXex/hk_preset.hpp GetCorrectionMatrix"]}
{"id": "C82", "title": "XML helpers hand over options, errors and children faithfully", "statement": "Any set of parse or format options given in any order is passed to pugixml as the union of its documented constants and an option is on iff it is in the set; the defaults are pugixml's; loading a file returns a document exactly when pugixml succeeded and otherwise throws the error pugixml reported; collecting children yields exactly the children of that name (all for an empty name) in order.", "quantifier": "every set of options, parse status, node and name", "why_tests_cant": "Sets of options of any size, trees of any width.", "anchors": ["datas/pugiex.hpp"]}
{"id": "C83", "title": "Reflected enums in Python", "statement": "enum[i] is the name of item i for every item and IndexError otherwise; enum.name is the value of the item of that name, and AttributeError if there is none.", "quantifier": "every reflected enum, index and name", "why_tests_cant": "All enums.", "anchors": ["datas/python/reflected_enum.hpp"]}
{"id": "C84", "title": "BC1 with transparency", "statement": "DecodeBC1BlockA writes the colour of every texel, and alpha 0 for the transparent index of three colour blocks and 255 otherwise.", "quantifier": "every block content, position and image size", "why_tests_cant": "2^64 blocks", "anchors": ["formats/BlockDecoder.inl DecodeBC1BlockA"]}
{"id": "C85", "title": "Searching a set of characters", "statement": "find_first_of(set, pos) is the smallest index at or behind pos whose character is in the set, find_last_of(set, pos) on a view that is not empty the largest index at or before pos whose character is in the set; npos if there is none.", "quantifier": "every view below 2^64 characters, set and position", "why_tests_cant": "all texts and positions", "anchors": ["datas/string_view.hpp find_first_of find_last_of"]}
{"id": "C86", "title": "Cutting a string view", "statement": "For pos < size, substr(pos, n) has min(n, size - pos) characters, character i being character pos + i of the view; a position at or behind the end throws; remove_prefix(n) and remove_suffix(n) with n <= size drop exactly the first or last n characters.", "quantifier": "every view, position and count", "why_tests_cant": "all texts, positions and counts including npos", "anchors": ["datas/string_view.hpp substr remove_prefix remove_suffix"]}
{"id": "C87", "title": "Seeking under relative origins", "statement": "On a stream that has not failed: after Seek(p) from the beginning Tell() is p and the absolute position is origin + p; Seek(Tell()) stays where it is; setting an origin without seeking does not move, with seeking it moves there and Tell() is 0; resetting the origin restores absolute addressing; GetSize() is the number of bytes behind the origin and keeps position, data and state.", "quantifier": "every stream content, position and origin below 2^63", "why_tests_cant": "all positions and origins", "anchors": ["datas/internal/bincore_navi.hpp"]}
{"id": "C88", "title": "Assigning text to unsigned integer members", "statement": "Text that is a number which fits is stored with success; a larger one stores the largest value and reports OutOfRange; a negative number stores its residue and reports SignMismatch (OutOfRange and the largest value from -2^64 on); text that is no number changes nothing and reports InvalidFormat. The text printed for a signed or unsigned integer member restores it in any object.", "quantifier": "every width, number, text and object", "why_tests_cant": "all texts", "anchors": ["datas/reflector.cpp SetReflectedValue"]}
{"id": "C89", "title": "The thread queue starts and finishes every task once", "statement": "Under every schedule tasks are started in order and at most once, no task finishes twice, never more tasks run at a time than hardware threads or tasks, and when the call returns every task was started once and has finished.", "quantifier": "every number of tasks and hardware threads and every interleaving", "why_tests_cant": "all schedules", "anchors": ["datas/multi_thread.hpp RunThreadedQueue"]}
{"id": "C90", "title": "Allocators without a foreign buffer and hybrid deleters", "statement": "An allocator without a foreign buffer, in every history of a client that frees what it got once, never fails, gives distinct storage to live allocations and frees each exactly once; a hybrid deleter that does not own never deletes, one that owns deletes exactly once.", "quantifier": "every history of allocations and releases", "why_tests_cant": "all histories", "anchors": ["datas/allocator_hybrid.hpp", "datas/deleter_hybrid.hpp"]}
{"id": "C91", "title": "Pointer fix-ups of one thread", "statement": "Fixing a pointer that was not fixed makes it resolve to root + offset (null stays null), fixing it again changes nothing, forced fixing always applies, and after any sequence of fix-ups every pointer resolves by the first root it was fixed with. A 32 bit relative pointer resolves to the assigned or fixed address exactly when the distance is not zero and fits 32 signed bits.", "quantifier": "every sequence of fix-ups, address, root and stored offset", "why_tests_cant": "all histories and addresses", "anchors": ["datas/pointer.hpp"]}
{"id": "C92", "title": "Colours of BC1, BC2 and BC3 blocks", "statement": "Each channel of each texel of a four colour block is the first end colour, the second, or the colour one third or two thirds between them, scaled to 0..255 and cut off (possibly one lower where the exact value is a whole number); no float conversion is out of range.", "quantifier": "every block content, position and image size below 4 GiB", "why_tests_cant": "2^32 pairs of end colours in float arithmetic", "anchors": ["formats/BlockDecoder.inl _DecodeBC1Block"]}
{"id": "C93", "title": "DDS level table", "statement": "ComputeBufferSize of a header with 0 to 15 levels gives as many levels, each with the size of its dimensions (halved, at least 1; rounded to whole blocks as the code does for block formats), offsets that start at 0 and continue where the last level ended, and their sum; NumMipmaps sets the count and exactly the mip map flags; ComputeBPP of a DX10 header looks up the format or refuses it.", "quantifier": "every header with levels below 4 Gibit and a total below 4 GiB", "why_tests_cant": "all dimensions and formats", "anchors": ["formats/DDS.hpp"]}
{"id": "C94", "title": "Matrix, quaternion and transform algebra", "statement": "Matrix product is associative with identity, full transposition reverses products and is an involution; matrices of unit quaternions are orthogonal and multiply like the quaternions; converting a unit quaternion to a matrix and back gives it up to sign, and a rotation matrix is the matrix of its quaternion; decomposing a transform into position, rotation and positive scale and composing again gives it back, and conversely.", "quantifier": "all matrices and quaternions in exact arithmetic (commutative rings, reals)", "why_tests_cant": "continuous domain", "anchors": ["datas/matrix44.cpp", "datas/matrix44.hpp"]}
{"id": "C95", "title": "Vector algebra", "statement": "Arithmetic of 2 and 3 component vectors acts component by component; dot is symmetric and bilinear; the cross product (plain and SIMD) is orthogonal to its operands and antisymmetric; endian conversion swaps each component; SIMD constructors and shifts act lane by lane.", "quantifier": "all vectors in exact arithmetic, all lanes and shift counts", "why_tests_cant": "continuous domain, 2^128 vectors", "anchors": ["datas/vectors.hpp", "datas/vectors_simd.hpp"]}
{"id": "C96", "title": "Loading XML changes members only", "statement": "Load applied to any document changes no memory outside members of the object and objects in it, whatever the outcome; it ignores a document without a node of the class and nodes that name no member.", "quantifier": "every document, class and nesting with tables whose members lie in the object", "why_tests_cant": "all documents", "anchors": ["datas/reflector_xml.cpp Load"]}
{"id": "C97", "title": "Loading binary data of another class or version", "statement": "Data of another class is refused without reading further; another member count is refused behind the data; items are applied by name hash in order, unknown ones are skipped; members known to both versions get the saved values and the others keep theirs. Nothing else changes.", "quantifier": "every class table, object and file with chunks below 2 GiB", "why_tests_cant": "all files and versions", "anchors": ["datas/reflector_io.cpp ReflectorBinUtil::Load"]}
{"id": "C98", "title": "Swizzle addresses never collide", "statement": "For every texture with power of two sides the code supports, different pixels have different addresses, and each address bit is the documented interleaving of coordinate bits.", "quantifier": "every supported size, pixel", "why_tests_cant": "all sizes up to 2^63 pixels", "anchors": ["formats/addr_ps3.hpp"]}
{"id": "C99", "title": "Half floats decode exactly into vectors", "statement": "The vector decoder gives the exact value of every half float that is no NaN, and of every normal number, zero and infinity of any float layout the template supports.", "quantifier": "every layout and all bit patterns", "why_tests_cant": "all layouts", "anchors": ["datas/float.hpp ToVector4"]}
{"id": "C100", "title": "Making the folders of one path or of files below a folder", "statement": "After mkdirs(path), and after mkdirs(base, files) with an existing base ending in a slash or no base, every folder of every path exists unless something that is no folder stands in its place; nothing that existed changes and nothing but these folders is created.", "quantifier": "every directory tree without links and permissions, NUL-free path, list of files", "why_tests_cant": "all trees and paths", "anchors": ["datas/stat.hpp mkdirs"]}
{"id": "C101", "title": "Printer messages through the stream operators", "statement": "In every interleaving of threads inserting NUL-free text and flushing with the terminator, each sink gets each message exactly once, with the text its thread inserted since its last flush and the prefix of its severity; a sink registered twice gets it once.", "quantifier": "every interleaving, number of threads, sinks and messages", "why_tests_cant": "all interleavings", "anchors": ["datas/master_printer.cpp"]}
{"id": "C102", "title": "Bones of a skeleton in Python", "statement": "Following parent visits the ancestors in order and ends at the root; reading parents never deletes a bone; bones are equal exactly when index and name are equal, which is an equivalence.", "quantifier": "every skeleton and sequence of reads", "why_tests_cant": "all skeletons and histories", "anchors": ["uni/python/pyskeleton.inl"]}
{"id": "C103", "title": "Sampling a motion track from Python with numbers", "statement": "get_values(list of numbers) returns exactly one value per time in order, each the track's value at that time in the form of its type; an argument that is no list is refused.", "quantifier": "every track and list of numbers", "why_tests_cant": "all lists", "anchors": ["uni/python/pymotion.inl"]}
{"id": "C104", "title": "Flags members survive printing", "statement": "The text printed for a flags member of up to 64 bits, assigned to that member of any object, stores exactly the registered bits of the printed word, and restores it with success when all its bits are registered; the empty set prints as NULL.", "quantifier": "every flags enum of distinct proper names, value and object", "why_tests_cant": "2^64 values and all enums", "anchors": ["datas/reflector.cpp"]}
{"id": "C105", "title": "Lists of integers by text", "statement": "'{z0, z1, ...}' with no more numbers than elements stores zi in element i and nothing else; the printed text of a list of integers restores it in any object; element i reads as exactly that element and as empty text when there is none; assigning element i changes only it.", "quantifier": "every width, list length, numbers, blanks around them and object", "why_tests_cant": "all lists and texts", "anchors": ["datas/reflector.cpp"]}
{"id": "C106", "title": "Name and value pairs of extended classes", "statement": "GetReflectedPair of an EXTENDED class gives alias (if wanted and present) or name, and the value, framed by the parts of the description around its first '%' when formatting is wanted; a number out of range gives an empty pair; CreateLog lists every setting so.", "quantifier": "every EXTENDED class, member, description and setting", "why_tests_cant": "all classes", "anchors": ["datas/reflector.cpp GetReflectedPair", "datas/settings_manager.hpp CreateLog"]}
{"id": "C107", "title": "Unicode conversions", "statement": "ToUTF1632 of UTF-8 text gives its UTF-16 units; std::to_string of UTF-16 and UTF-32 strings that are not empty, with or without terminator, gives the UTF-8 of the text.", "quantifier": "every text of Unicode scalar values", "why_tests_cant": "all texts", "anchors": ["datas/unicode.hpp"]}
{"id": "C108", "title": "Blowfish encrypts blocks as published", "statement": "With any boxes EncodeBlock is the published 16 round network with F(x) = ((S0[a] + S1[b]) ^ S2[c]) + S3[d], and the initial boxes are the binary digits of pi.", "quantifier": "every content of the boxes and every block; all 1042 table words", "why_tests_cant": "2^64 blocks and all keys", "anchors": ["datas/encrypt/blowfish.cpp"]}
{"id": "C109", "title": "Stored ZIP members are read verbatim", "statement": "Opening an archive of stored members and folders (unique or repeated names, any origin) succeeds, every member that is not empty is found under its name and read exactly, again and again; an archive with an encrypted, compressed or unnamed member with data, or an unknown record, anywhere is refused.", "quantifier": "every archive with members below 2 GiB", "why_tests_cant": "all archives", "anchors": ["datas/zip_vfs.hpp"]}
{"id": "C110", "title": "Integer channels of vertex formats", "statement": "For every format the unsigned (signed) integer codec returns each channel as the (sign extended) slice of the element's bits, sampling gives one result per element, result i that of the bytes at i * stride; strides below the element size and calls for the wrong kind are refused; the formats with codecs are exactly the listed ones.", "quantifier": "every format, buffer holding what the codec reads, count and stride", "why_tests_cant": "all buffers", "anchors": ["uni/uni_format.cpp"]}
{"id": "C111", "title": "The reflection database without aliases survives", "statement": "Saving a type database whose classes have no alias hashes to an empty file and loading it gives the same database; other files and newer versions are refused.", "quantifier": "every well formed database below 2 GiB, every load address", "why_tests_cant": "all databases", "anchors": ["datas/reflector_io.cpp"]}
{"id": "C112", "title": "RIFF headers and chunk ids", "statement": "The stored RIFF size plus 8 is the file size; byte rate and block alignment of PCM, A-law and mu-law are channels * rate * bits / 8 and channels * bits / 8 (cut to the 32 and 16 bits of their fields); exactly the four WAVE ids are valid chunk ids.", "quantifier": "every size, channel count, rate and id", "why_tests_cant": "2^32 values each", "anchors": ["formats/WAVE.hpp"]}
{"id": "C113", "title": "Paths split into folder and name", "statement": "For every path that is not empty, whatever was loaded before: the full path is the input with backslashes replaced, folder + name with extension is the full path, the name contains no slash, the folder is empty or ends with one; path without extension + extension is the full path, the extension is empty or starts with its only dot.", "quantifier": "every path and earlier state", "why_tests_cant": "all paths", "anchors": ["datas/fileinfo.hpp"]}
{"id": "C114", "title": "Exact outcome of variable length signed numbers", "statement": "Writing any signed number with bint128 and reading it gives, for numbers from -2^55 on, the number and the rest of the stream, and below exactly the deviation described (so corruption is confined to those numbers).", "quantifier": "all 2^64 numbers and following bytes", "why_tests_cant": "2^64 values", "anchors": ["datas/base_128.hpp"]}
{"id": "C115", "title": "File readers and writers are independent cursors", "statement": "Every BinReader/BinWritter that was opened is a private cursor on its file: opening an existing file succeeds and puts it at the start, opening a missing one reports file not found (a writer: invalid access); this holds also after another Open on the same object, after moving the object, and operations before Open are reported rather than undefined.", "quantifier": "every program over any number of readers, every disk", "why_tests_cant": "all histories of construction, opening, moving, use and destruction", "anchors": ["datas/binreader.hpp", "datas/binwritter.hpp", "datas/internal/bincore_file.hpp"]}
{"id": "C116", "title": "Test macros check what they say", "statement": "TEST_CHECK(e) fails exactly when e is false, the comparing macros fail exactly when the relation in their name does not hold, for every argument expression; the result of the cases is zero exactly when every case returned zero.", "quantifier": "every argument expression, every list of case results", "why_tests_cant": "all expressions and operator precedences", "anchors": ["datas/unit_testing.hpp"]}
{"id": "C117", "title": "Elements delete their object exactly once", "statement": "In every program that makes objects, turns them into elements, takes borrowed elements from lists, moves, assigns, and destroys handles: no object is deleted twice or while an owner holds it, once no handle is left every object has been deleted, and using an object is defined as long as an owner has it; ToElement moves the ownership.", "quantifier": "every program of these operations", "why_tests_cant": "all histories of moves and destructions", "anchors": ["uni/common.hpp", "uni/list_vector.hpp", "datas/deleter_hybrid.hpp"]}
{"id": "C118", "title": "Opened file readers are independent cursors", "statement": "For every program that opens each reader (writer) at most once, does not move it and uses it only opened: each behaves as a private cursor on its file, whatever is done with the others; opening fails exactly for missing (unwritable) files with the documented exception.", "quantifier": "every such program, any number of readers, every disk", "why_tests_cant": "all interleavings of operations on several readers", "anchors": ["datas/binreader.hpp", "datas/binwritter.hpp", "datas/internal/bincore_file.hpp"]}
{"id": "C119", "title": "Comparing test macros and case counts", "statement": "The comparing macros, for all arguments built from operators that bind tighter than comparisons, fail exactly when the relation in their name does not hold; for cases returning 0 or 1 the sum is the number of failed cases and successed the rest; for results that are not negative the sum is zero exactly if all are.", "quantifier": "every such expression and list", "why_tests_cant": "all expressions", "anchors": ["datas/unit_testing.hpp"]}
{"id": "C120", "title": "Log colours", "statement": "Colours do not change the printed texts; sinks registered without colours never get escape sequences; in programs that set no colours of their own, on every sink with colours warnings are yellow and errors red, everything else and everything between messages normal, for any number of threads and sinks; the sequence for components 0 to 255 fits its buffer and determines the colour.", "quantifier": "every history of every number of threads and sinks", "why_tests_cant": "all interleavings and registrations", "anchors": ["datas/master_printer.cpp", "datas/internal/master_printer_ix.inl", "datas/master_printer.hpp"]}
{"id": "C121", "title": "Node suffix text", "statement": "The suffix lists the requested channels in ascending order and N, S, M exactly when requested, in the class name's parentheses if given; it does not depend on the order of requests or on earlier generation.", "quantifier": "every sequence of requests, every class name", "why_tests_cant": "all orders of calls", "anchors": ["MAXex/NodeSuffix.h"]}
{"id": "C122", "title": "Resizing composite textures", "statement": "Resize to a positive size keeps the layers that fit, in order, and adds new ones up to the size; other sizes are refused and change nothing.", "quantifier": "every list of layers and every size", "why_tests_cant": "all sizes", "anchors": ["MAXex/CompositeTex.h"]}
{"id": "C123", "title": "Material parameters are independent", "statement": "For every parameter class and sequence of setting accessors on any objects of a block, each getting accessor returns what was last set with it on that object.", "quantifier": "every sequence of calls", "why_tests_cant": "all histories", "anchors": ["MAXex/MapsCore.h", "MAXex/PhysicalMaterial.h", "MAXex/CompositeTex.h", "MAXex/Mix.h", "MAXex/NormalBump.h", "MAXex/RGBMultiply.h", "MAXex/VertexColor.h"]}
{"id": "C124", "title": "Colours set by the program", "statement": "SetConsoleTextColor with any numbers is defined and applies to all following messages on every sink with colours alike, until restored or until a message of another severity; every history shows exactly the specified colours.", "quantifier": "every history, all int triples", "why_tests_cant": "all histories and numbers", "anchors": ["datas/internal/master_printer_ix.inl", "datas/master_printer.cpp"]}
{"id": "C125", "title": "Node suffix identifies its requests", "statement": "Different sets of requests give different suffixes, and asking twice for colours is the same as once.", "quantifier": "all sequences of requests", "why_tests_cant": "all sequences", "anchors": ["MAXex/NodeSuffix.h"]}
{"id": "C126", "title": "Deleting layers", "statement": "DeleteLayer removes exactly the addressed layer, and refuses every position without a layer and the only layer.", "quantifier": "every list of layers, every int", "why_tests_cant": "all positions", "anchors": ["MAXex/CompositeTex.h"]}
{"id": "C127", "title": "Blue of normal maps", "statement": "ComputeBC5Blue replaces the first byte of every three byte pixel by the third coordinate of the unit vector whose other two coordinates are the pixel's second and third bytes (1 + z scaled to 0..255, accurate to 2.2 steps, and 0 for z where the two are longer than 1), and changes and reads nothing else.", "quantifier": "every buffer of every length, every byte in it", "why_tests_cant": "65536 pairs of coordinates per pixel, float rounding in each step, all buffer lengths", "anchors": ["formats/BlockDecoder.h: ComputeBC5Blue"]}
{"id": "C128", "title": "Bits per pixel of texture formats", "statement": "ComputeBPP sets the bits that one pixel of the header's format takes (sum of the channel widths; block bytes over 16 pixels; half of a pair's bits), for DX10 headers and for legacy codes, changes nothing else, and keeps a value that is there; IsBC holds exactly for the block compressed formats, and ComputeBufferSize lays out exactly those in blocks.", "quantifier": "every DXGI format, every legacy code, every header", "why_tests_cant": "2^32 values per field, all combinations with the other fields", "anchors": ["formats/DDS.hpp: ComputeBPP, IsBC, ComputeBufferSize, _bpps"]}
{"id": "C129", "title": "The SSE decoder of BC1 blocks decodes BC1", "statement": "_SDecodeBC1Block writes, for every texel of the 4x4 block, the colour that the texel's two bits select (first end colour, second end colour, two thirds of the first, two thirds of the second) at the texel's position, channels blue, green, red, each close to the exact 8 bit value of the 5-6-5 fields, for every supported pixel size, and writes nothing else.", "quantifier": "every block (2^64), every position in every image the 32 bit arithmetic can address, every buffer, every pixel size", "why_tests_cant": "2^32 pairs of end colours and 2^32 index words; the wrong results depend on sign bits of single channels", "anchors": ["formats/BlockDecoderSimd.hpp: DecodeRGB565Blocks, _SDecodeBC1Block", "datas/vectors_simd.hpp: V4SimdIntType_t"]}
{"id": "C130", "title": "Float vectors and matrices round once per operation", "statement": "Sums, differences, products and quotients of float vectors are, in every component, the float nearest to the exact result (ties to even, infinite beyond the largest float). When the sum of the absolute products is at most 2^126, dot products are at most 2^-22 (2^-21 for the four component scalar class) of that sum plus 2^-147 (underflow) from the exact ones, and so is every element of a matrix product; multiplying with the identity matrix changes no value, and products of matrices of whole numbers are exact while the sums stay below 2^24.", "quantifier": "every pair of vectors (two, three and four components) and matrices of finite floats", "why_tests_cant": "2^128 vectors, 2^512 matrices; rounding errors depend on all bits", "anchors": ["datas/vectors.hpp: operator+, operator-, operator*, operator/, Dot", "datas/vectors_simd.hpp: V4SimdFltType", "datas/matrix44.cpp: operator*="]}
{"id": "C131", "title": "Normalize gives a unit vector in floats", "statement": "For every finite non-zero float vector Length is the exact length up to 2^-21 of it, every component of Normalize / Normalized is at most 2^-20 from the component divided by the exact length, and the squared length of the result is at most 2^-17 from one.", "quantifier": "every vector of 2, 3 or 4 finite floats, both classes of 4", "why_tests_cant": "2^128 vectors, with overflow and underflow of the squares at both ends", "anchors": ["datas/vectors.hpp: Length, Normalize", "datas/vectors_simd.hpp: Length, Normalized"]}
{"id": "C132", "title": "Tolerant comparison of float vectors", "statement": "Two float vectors whose components differ by at most 2^-23 compare equal, in either order; vectors that compare equal differ by at most 2^-23 and the rounding of the bound in every component; a vector is equal to itself; a vector with a NaN is equal to none; < and > of the SIMD class compare the exact values of all components.", "quantifier": "every pair of vectors of finite floats (and NaN)", "why_tests_cant": "2^256 pairs; the bound itself is rounded", "anchors": ["datas/vectors.hpp: fltcmp, operator==", "datas/vectors_simd.hpp: Compare, operator==, operator<, operator>"]}
{"id": "C133", "title": "Rotations in floats", "statement": "The elements of the matrix built from a quaternion with components in -1..1 are at most 2^-19 from those of the exact rotation matrix, and the fourth row and column are exactly (0, 0, 0, 1); every component of RotatePoint is at most 2^-22 of the sum of the absolute products plus 2^-147 (underflow) from the exact product when that sum is at most 2^126.", "quantifier": "every quaternion of floats in -1..1, every matrix and point of finite floats", "why_tests_cant": "2^128 quaternions", "anchors": ["datas/matrix44.cpp: FromQuat, RotatePoint"]}
{"id": "C134", "title": "Float vertex formats have the values stored", "statement": "Sampling a FLOAT or UFLOAT element gives, in every channel, the number that the stored bits of that channel mean in the channel's float layout (binary32, binary16, 11 and 10 bit floats), and +0 in channels the format does not have.", "quantifier": "every element of every float format", "why_tests_cant": "2^128 elements; failures lie in subnormals, NaNs and single bits of neighbours", "anchors": ["uni/internal/format_full.hpp: FormatCodec_t<FormatType::FLOAT>, FormatCodec_t<FormatType::UFLOAT>", "datas/float.hpp: esFloat"]}
{"id": "C135", "title": "Motions and skeletons can be used in for loops", "statement": "for (auto &x : motion) and for (auto &x : skeleton) visit every track or bone of the list that Tracks() or Bones() returns, in order, once, whichever way the class returns that list (lent or given away, both of which Element allows).", "quantifier": "every list, every implementation of Tracks() / Bones(), every state of the heap", "why_tests_cant": "a list that was deleted is often still readable, so tests pass", "anchors": ["uni/motion.hpp: Motion::begin, Motion::end", "uni/skeleton.hpp: Skeleton::begin, Skeleton::end", "uni/common.hpp: Element", "uni/virtual_iterator.hpp: VirtualIterator"]}
{"id": "C136", "title": "The text of an integer vector is its components", "statement": "The text std::to_string or a stream gives of an integer vector is its components as decimal numbers, in order, separated by single blanks; so different vectors have different texts.", "quantifier": "every vector of two to four integers of any integer type", "why_tests_cant": "too many vectors; the 8 bit types behave differently", "anchors": ["datas/vectors_string.hpp: to_string", "datas/vectors_stream.hpp: operator<<"]}
{"id": "C137", "title": "Translation, rotation and scale of a bone", "statement": "The default RTSValue is the neutral transform: it leaves points where they are, alone and in front of any parent matrix; a bone's matrix times its parent's puts a point where the parent puts what the bone puts; values compare equal exactly if they are equal up to the tolerance, and never with NaN; in Python the components are in order.", "quantifier": "every value, every parent matrix, every point", "why_tests_cant": "the space of values is infinite and tests use parents at the origin", "anchors": ["uni/rts.hpp: RTSValue", "datas/matrix44.cpp: esMatrix44::Compose", "uni/python/pyrts.hpp: Py_BuildValue"]}
{"id": "C138", "title": "String views behave like strings and stay in their text", "statement": "A program that makes, assigns, slices, shortens, resizes and exchanges string views as documented sees the characters, and gets the exceptions, that a program with strings in their place would; no view ever covers an address outside of the texts that views were made of.", "quantifier": "every program, every memory, every number of views", "why_tests_cant": "histories are unbounded, and reading outside is often silent", "anchors": ["datas/internal/string_view.inl: basic_string_view, substr, remove_prefix, remove_suffix, resize, swap"]}
{"id": "C139", "title": "Assigning the text of a number to a float or double", "statement": "Assigning a text with a decimal or hexadecimal number to a float or double field stores the representable number nearest to it (ties to even), with the sign of the text, when the number is zero or in the range of normal numbers; a number that is too large stores the largest finite number of its sign and one that is too small the smallest normal number of its sign, both reported as out of range; a text without a number changes nothing and is reported as an invalid format; inf and nan are stored as such.", "quantifier": "every text, every class description, every object, float and double", "why_tests_cant": "there are infinitely many texts per float, and the errors sit at boundaries no test enumerates", "anchors": ["datas/reflector.cpp: SetNumber"]}
{"id": "C140", "title": "Decimal texts of floats survive saving and loading", "statement": "A float (double) field reads as its value rounded to 6 (13) significant digits; a number of at most that many digits survives being assigned, read and assigned again; saving, loading and saving again gives the same text; the value of every field survives saving and loading.", "quantifier": "every bit pattern of float and double, every text, every object", "why_tests_cant": "2^64 doubles and unboundedly many texts", "anchors": ["datas/reflector.cpp: SetNumber, GetReflectedPrimitive"]}
{"id": "C141", "title": "Infinities, divisions by zero and NaN in float vectors", "statement": "For float vectors: a component that is not a number makes that component of every sum, difference, product and quotient, the dot products, the length, every component of the normalized vector and the row (column) of a matrix product not a number; dividing by a zero component gives an infinity with the product of the signs, or NaN for 0/0, and never traps; infinite components follow IEEE 754; comparisons of components are the order of the number line with both infinities and false for NaN; the square root of a negative number is NaN, of a zero the same zero.", "quantifier": "every bit pattern of every component of every vector and matrix", "why_tests_cant": "2^128 patterns per vector", "anchors": ["datas/vectors.hpp: V4ScalarType", "datas/vectors_simd.hpp: V4SimdFltType", "datas/matrix44.cpp: esMatrix44::operator*"]}
{"id": "C142", "title": "Registered types are found", "statement": "Every class and enum given to RegisterReflectedTypes is found under its hash with its own description, whatever the number and order of the registrations; a member that is a registered class, or an element of an array of them, is described by that class at the address of that element; types registered by static objects are available in main.", "quantifier": "every list of classes and enums, every order of registration and of static initialisation, every class table, member, element and object address", "why_tests_cant": "the orders and the sets of names are unbounded, and the order of static initialisation is chosen by the linker", "anchors": ["datas/internal/reflector_reg.hpp: RegisterReflectedType, RegisterReflectedTypes", "datas/internal/reflector_class.hpp: _REFLECTOR_START_VER0_, _REFLECTOR_MAIN_CLASSHASH", "datas/reflector.cpp: GetReflectedSubClass, REFEnumStorage, REFSubClassStorage"]}
{"id": "C143", "title": "Console colours on Windows", "statement": "On Windows a coloured message is shown in its colour whatever the console showed before, never black unless black was asked for, and afterwards the console has the colours it had before.", "quantifier": "every attribute word of the console, every history of printers, colours and other programs, every colour", "why_tests_cant": "the histories are unbounded and the console belongs to other programs too", "anchors": ["datas/internal/master_printer_win.inl: SetConsoleTextColor, RestoreConsoleTextColor, MasterPrinterThread::MasterPrinterThread"]}
{"id": "C144", "title": "Test functions and test programs succeed exactly when their checks hold", "statement": "A test function written with the macros of unit_testing.hpp returns 0 exactly when none of its checks (TEST_THROW included) failed; a test program announces the number of its functions, reports one line for every failing function, and its result is 0 exactly when all checks of all functions hold. What a check tests is the value of the text pasted, evaluated by C++ precedence.", "quantifier": "every expression text, every list of checks, every list of test functions", "why_tests_cant": "the test macros are what the tests trust; no test can vouch for them on all expressions", "anchors": ["datas/unit_testing.hpp: TEST_CHECK, TEST_EQUAL, TEST_GT, TEST_LT, TEST_GT_EQ, TEST_LE_EQ, TEST_NOT_CHECK, TEST_NOT_EQUAL, TEST_THROW, TEST_FUNC, TEST_CASES"]}
{"id": "C145", "title": "Compile time fractions", "statement": "GetFraction_t<n>::VALUE are the bits of the largest float not greater than 1 / (2^n - 1), for every width that compiles; it is the same number as GetFraction(n).", "quantifier": "every width", "why_tests_cant": "compile time values: a test instantiates a few widths, and the claim is about every one", "anchors": ["datas/supercore.hpp: GetFraction_t, GetFraction"]}
{"id": "C146", "title": "Loading an untrusted binary stream stays inside the object", "statement": "Whatever bytes a stream holds and whatever ReflectorBinUtil::Load answers, the bytes left are the end of the stream and nothing has changed but the reflected members of the object, so with members that end inside their classes no byte outside the object is written; how deep classes nest has no influence on the answer.", "quantifier": "every class table, registry of classes, stream (well formed or not), object and answer", "why_tests_cant": "a test loads streams somebody wrote; the claim is about every sequence of bytes", "anchors": ["datas/reflector_io.cpp: ReflectorBinUtil::Load, LoadClass, LoadDataItem"]}
{"id": "C147", "title": "Loading a version 2 XML document stays inside the object", "statement": "Whatever document is handed to ReflectorXMLUtil::LoadV2, only members of the object and of the objects inside it change; names that belong to no member, item numbers and axes that do not exist have no effect.", "quantifier": "every class, registry, object in the address space, document (attributes, children, nesting) and text", "why_tests_cant": "a test loads documents somebody saved; the claim is about every document", "anchors": ["datas/reflector_xml.cpp: ReflectorXMLUtil::LoadV2", "datas/reflector.cpp: SetReflectedValue"]}
{"id": "C148", "title": "ZIP members that are listed are in the file", "statement": "Whatever bytes the file has, if ZIPVFS opens it then every listed name belongs to a complete local file header in the file that has exactly this name and size and says the member is stored and not encrypted, the listed offset is where that header's data starts, and Get returns exactly the bytes of the file there when they are all in the file (C149 says what happens otherwise). Opening a file whose lengths are below 2 GiB returns, with a list or an exception, after at most one step per byte.", "quantifier": "every byte sequence, origin, reader state and number of steps", "why_tests_cant": "tests open archives that an archiver made; the claim is about every file", "anchors": ["datas/zip_vfs.hpp: ZIPVFS", "formats/ZIP_istream.inl"]}
{"id": "C149", "title": "ZIP members can be read in any order and again", "statement": "After an archive was opened, each Get returns the content of its member, whatever was read before.", "quantifier": "every file, every sequence of names", "why_tests_cant": "sequences of reads are unbounded", "anchors": ["datas/zip_vfs.hpp: ZIPVFS::Get"]}
{"id": "C150", "title": "ZIP members can be read from many threads", "statement": "Any number of threads may call Get on one archive at the same time, for members whose data are in the file: every call returns exactly the bytes of its member, in each thread's own order, no call waits forever as long as every thread gets its turns, and there is no deadlock.", "quantifier": "every file, number of threads, list of calls per thread and schedule", "why_tests_cant": "races depend on the schedule; a test sees a few of them", "anchors": ["datas/zip_vfs.hpp: ZIPVFS::Get, rdMutex"]}
{"id": "C151", "title": "Integer vectors compute component by component and never overflow into undefined behaviour", "statement": "For the integer element types, + - * / & | << >> of 2, 3 and 4 component vectors, unary minus, Dot, Sign, Length and Normalize give, in every component, the exact result reduced to the element type; they are undefined only for a division by zero, a bad shift count and (int32) an overflow.", "quantifier": "every element type (int8..int32, uint8..uint32), every pair of vectors and every shift vector", "why_tests_cant": "integer promotion, wrap-around and shift rules differ per element type and only show at extreme components", "anchors": ["datas/vectors.hpp: t_Vector2, t_Vector, V4ScalarType", "datas/vectors_fwd.hpp"]}
{"id": "C152", "title": "Directory scan and FileType on Windows", "statement": "On Windows, scanning a directory appends every file below it that is not a device and matches a filter, once and with its full path, and ends for every finite tree; FileType tells missing paths, folders and files apart and answers as on other hosts.", "quantifier": "every directory tree, listing order, filter set and attribute word", "why_tests_cant": "trees and listing orders are unbounded; drive roots list no '.' first", "anchors": ["datas/directory_scanner.cpp: Scan (Windows branch)", "datas/internal/stat_win.inl: FileType"]}
{"id": "C153", "title": "The Blowfish chaining modes are the published ones", "statement": "Block i of the encoded buffer is E(P_i) in ECB, E(P_i ^ C_{i-1}) in CBC, E(P_i ^ P_{i-1} ^ C_{i-1}) in PCBC, P_i ^ E(C_{i-1}) in CFB and P_i ^ E^{i+1}(vector) in OFB, where the vector stands for what comes before block 0.", "quantifier": "every buffer of up to 2^28 blocks, every key schedule, vector, mode and block index", "why_tests_cant": "a round trip cannot tell a wrong chaining rule from the right one; message length is unbounded", "anchors": ["datas/encrypt/blowfish.cpp: Encode, EncodeECB, EncodeCBC, EncodePCBC, EncodeCFB, EncodeOFB"]}
{"id": "C154", "title": "Printing a text and help switches", "statement": "UPrintf(text) writes exactly the text to the standard output, whatever characters it has, in builds with and without UNICODE; IsHelp is true exactly for -h, -?, /? and --help.", "quantifier": "every NUL-terminated text of Unicode scalar values, every argument", "why_tests_cant": "every text has to survive, including those that look like format strings", "anchors": ["datas/tchar.hpp: UPrintf, IsHelp"]}
{"id": "C155", "title": "Files got from an archive are independent and can be kept", "statement": "A file returned by ZIPVFS::Get is a cursor of its own on the content of the member; any number of them can be used in turn, dropped and moved to another place, and a moved file goes on where it was.", "quantifier": "every program of Get, use, move and drop on any number of files", "why_tests_cant": "interleavings of uses and moves are unbounded; the effect depends on the compiler building the result in place", "anchors": ["datas/zip_vfs.hpp: ZIPVFSFile, ZIPVFS::Get"]}
{"id": "C156", "title": "Loading a description database stays inside its buffer", "statement": "ReflectorIO::Load reads and writes only inside the buffer it has read, whatever the file contains; for a file written by Save it completes and gives the classes and enums saved.", "quantifier": "every file, every address of the buffer, every saved database", "why_tests_cant": "the offsets and counts of a file range over all 32 bit numbers", "anchors": ["datas/reflector_io.cpp: ReflectorIO::Load"]}
{"id": "C157", "title": "Python objects of a scene can be used as long as they are held", "statement": "A motion, track, skeleton, bone or list that a Python program holds can be used, whatever else the program has dropped; an object given to Python is deleted exactly once, when Python drops it, and one that is lent is never deleted by Python.", "quantifier": "every program of creating, reading attributes and items, using and dropping, every way the classes lend or give their parts", "why_tests_cant": "deleted memory is often still readable, and the orders of dropping are endless", "anchors": ["uni/python/pylist.hpp: UniPy::List::Create, SubscriptRaw, Dealloc", "uni/python/pymotion.inl: Motion::Tracks, Motion::Create, Dealloc", "uni/python/pyskeleton.inl: Skeleton::Bones, Bone::GetParent, Dealloc"]}
{"id": "C158", "title": "The missing component of a unit quaternion is computed in floats", "statement": "QComputeElement and QComputeElementVar, called on a vector that has three components of a unit quaternion rounded to floats and zero in place of the fourth, put there a number that makes a unit quaternion again up to a few roundings, and leave the others alone.", "quantifier": "every vector of four floats, every index, rounding of every operation", "why_tests_cant": "2^96 vectors; the failures lie within one rounding of the unit sphere", "anchors": ["datas/vectors_simd.hpp: QComputeElement, QComputeElementVar"]}
{"id": "C159", "title": "Rotation matrices of floats convert back to their quaternion", "statement": "ToQuat on a float matrix that is a rotation up to the rounding of its elements gives the quaternion of that rotation, or its negative (the same rotation), with a small bounded error in every component, whichever of its four cases is taken; so a unit quaternion stored in floats survives the constructor from a quaternion followed by ToQuat.", "quantifier": "every float matrix near a rotation matrix, every unit quaternion, rounding of every operation", "why_tests_cant": "infinitely many rotations; accuracy could be lost only near the borders of the four cases, where the square root is smallest", "anchors": ["datas/matrix44.cpp: ToQuat, FromQuat"]}
{"id": "C160", "title": "Transforms of floats are composed and taken apart accurately", "statement": "Decompose on a float matrix that is a rotation with scaled rows, up to rounding, returns the position exactly, the three scales with their common sign and the rotation as a unit quaternion (up to its sign), each with a small bounded error; Compose of a stored unit quaternion and scales gives such a matrix, so position, rotation and scale survive Compose followed by Decompose.", "quantifier": "every float matrix near a scaled rotation, every unit quaternion, all scales of one sign between 2^-30 and 2^30, rounding of every operation", "why_tests_cant": "three independent scales, all rotations; the sign is decided by a triple product that could underflow or cancel", "anchors": ["datas/matrix44.cpp: Decompose, Compose, ToQuat, FromQuat"]}
{"id": "C161", "title": "The inverse of a matrix of floats", "statement": "Negating a float matrix gives a matrix whose upper part is the transposed one with each row of the original divided by the square of its length, up to a relative error of 2^-20, and whose fourth column is that of the identity; without a translation the product with the original is the identity up to the rounding and the error of the right angles between the rows.", "quantifier": "every float matrix with rows longer than 0.001 and not longer than 2^30, rounding of every operation", "why_tests_cant": "all lengths, directions and roundings; the division by the squared length amplifies errors near the clamp", "anchors": ["datas/matrix44.cpp: operator-"]}
{"id": "C162", "title": "The text of a float vector is its components, rounded", "statement": "The text std::to_string gives of a vector of floats or doubles is its components in order, separated by single blanks, each the component rounded to the nearest millionth with its sign; a stream writes each rounded to six significant digits; so vectors with the same text from to_string differ by at most a millionth in each component.", "quantifier": "every vector of two to four finite floats or doubles", "why_tests_cant": "every bit pattern of every component; carries across digits and exponents", "anchors": ["datas/vectors_string.hpp: to_string", "datas/vectors_stream.hpp: operator<<"]}
{"id": "C163", "title": "The messages of XML exceptions name the node and its place", "statement": "The exceptions for a missing child, attribute or missing data name the node, say what is missing and give a number that is the distance of the node's name from the first name of the document plus 25; equal messages in one document are about the same node; the number is the position of the name in the document exactly when the first name begins at position 25.", "quantifier": "every document, every node whose name is in the parsed text, every name and text", "why_tests_cant": "all positions and names; the number is approximate by design and right only for one header length", "anchors": ["datas/pugiex.hpp: XMLBaseException, XMLMissingNodeException, XMLMissingNodeAttributeException, XMLEmptyData"]}
{"id": "C164", "title": "Registering the Python types", "statement": "After InitType of Skeleton and Motion every type CPython took is found in the module under its own name and all other names lead to what they led to before; each type has exactly the references the module's dictionary holds more than others hold; a program can name each of the types; failures are reported.", "quantifier": "every module, every state of its dictionary and of the reference counts, every outcome of every call into CPython, every sequence of PyAddType calls", "why_tests_cant": "failures inside CPython and repeated or overlapping registrations cannot be provoked by a test; reference counts must balance in all of them", "anchors": ["datas/pythonex.hpp: PyAddType", "uni/python/pyskeleton.inl: Skeleton::InitType", "uni/python/pymotion.inl: Motion::InitType"]}
