# PreCore formal model: design

Source: /repo (PredatorCZ/PreCore, pinned). Proof assistant: Lean 4.33.0 with single Mathlib modules. Modules live in
`lean/Verif/`. `Model/*` hold the executable models (each definition cites file and lines and says what it simplifies),
`Spec/*` small independent specifications, `Lemmas/*` auxiliary facts, `Props/*` the property theorems, each with an
`example` showing that a non-trivial case meets its hypotheses. This file is generated by `tools/design.py` from
`tools/design_text.md`, `tools/design_rows.md` and the manifest.

## Conventions

* Fixed width integers are `BitVec n` (or `Nat` with an explicit bound when only counting matters); byte streams and object
  memory are `List (BitVec 8)`.
* A function that may throw or run into undefined behaviour returns a distinct outcome (`Option`, `Except` or a dedicated
  inductive type), never a default value.
* When the unchanged code violates a listed property, the negation is proved with a witness or, where possible, for the whole
  family of failing inputs (`..._violated`), and the strongest true part keeps the suffix `_partial` (or is stated for the
  exact set of inputs on which the code is right). The property's full statement stays in `properties.jsonl`.
* Concurrency (threads, printer) is a transition system; theorems range over all schedules.
* Floating point: `Model/Float32.lean` is exact binary32 arithmetic with round to nearest even (the
  tables for infinities and NaN are checked by `Props/Float32Special.lean`, the rounding error by `Lemmas/Float32Err.lean`); the vector and matrix
  functions are polymorphic: C40, C49 and C94 use them with exact field arithmetic, C130 to C133 with binary32 (`Model/FloatVec.lean`), every
  operation rounded once in the order of the source.

## Plan per property

| id | property | modelled | proved by | status |
|---|---|---|---|---|
| C01 | Unsigned base-128 integers survive a write/read cycle | byte writer/reader loops over `BitVec 64` | induction on the loop index, list append | proved |
| C02 | Signed base-128 integers survive a write/read cycle | same; three value ranges | partial + two negation witnesses | partial |
| C03 | Endian swap is byte reversal and its own inverse | `_fbswap` masks/shifts vs reversed byte list | bit-extensional proof | proved |
| C04 | Bit-field members are independent storage cells | member layout = prefix sums; Get/Set masks on `BitVec w` | bit-extensional, arithmetic on prefix sums | proved |
| C05 | Bit-field endian conversion preserves every declared member | `SwapBitField` loop as fold | bit-extensional invariant of the fold | proved |
| C06 | Flags behave as a set of enumerators | Flags word; history of operations | induction over the history, abstraction to `Nat → Bool` | proved |
| C07 | XOR encoding is an involution that keeps length | XOR over list with index | pointwise | proved |
| C08 | Blowfish block decryption inverts encryption | Feistel rounds with arbitrary F and p-box list | induction on the round list | proved |
| C09 | Every Blowfish chaining mode decodes what it encodes | five modes over lists of blocks | induction on blocks, generalising the chain value | partial |
| C10 | Jenkins one-at-a-time hash follows its defining recurrence | fold over characters on `BitVec 64` | fold algebra; order laws | proved |
| C100 | Making the folders of one path or of files below a folder | mkdirs on a POSIX folder model (C69) | invariant over the sorted set of folders; negation (C69) | proved |
| C101 | Printer messages through the stream operators | printer buffer state machine (C42) | induction over history; negation when residual text remains (C42) | proved |
| C102 | Bones of a skeleton in Python | bone table, reference and block counters (C79) | induction over the history and the chain; negation (C79) | proved |
| C103 | Sampling a motion track from Python with numbers | conversion and dispatch loops of `get_values` (C78) | induction over the times; negation (C78) | proved |
| C104 | Flags members survive printing | text printers and setters over a field memory (C26) | round trip lemmas (C26) | proved |
| C105 | Lists of integers by text | text printers and setters over a field memory (C27); sub-value accessors of lists, components, flags (C59) | round trip lemmas (C27); read lemmas over the byte memory (C59) | proved |
| C106 | Name and value pairs of extended classes | name/alias/description tables (C67); text built by the loops (C75) | list lemmas; negation (C67); structural induction over the help tree; negation (C75) | proved |
| C107 | Unicode conversions | codecs as functions on code points (C73) | induction over the text; negation (C73) | proved |
| C108 | Blowfish encrypts blocks as published | Feistel network and key schedule against a separate specification (`Spec/Blowfish`) (C57) | refinement, induction on rounds; the tables against `Real.pi` by Machin's formula with exact partial sums evaluated by the kernel (C57) | proved |
| C109 | Stored ZIP members are read verbatim | byte-level archive parser (C33) | round trip against an abstract archive builder (C33) | proved |
| C11 | Every byte of the key takes part in JenkinsHash3 | block loop of lookup3 variant | negation: last 12 bytes ignored for lengths 24,36,...; partial for the rest | partial |
| C110 | Integer channels of vertex formats | bit slices and stride loop (C38) | list/bit lemmas (C38) | proved |
| C111 | The reflection database without aliases survives | database image with fixups (C47) | negation: alias hashes lost; partial (C47) | proved |
| C112 | RIFF headers and chunk ids | Next() offset arithmetic (C48) | negation with witness; partial (C48) | proved |
| C113 | Paths split into folder and name | Load with last '/' and last '.' (C16) | list lemmas; negation for dotted folder and for empty reload (C16) | proved |
| C114 | Exact outcome of variable length signed numbers | same; three value ranges (C02) | partial + two negation witnesses (C02) | proved |
| C115 | File readers and writers are independent cursors | reader/writer objects at addresses with the file stream, members and the pointer to the stream used; open, move, destroy, any access | refinement to private cursors; negations for reopening, moving, use before Open | partial |
| C116 | Test macros check what they say | expressions with C++ precedence, the parse of pasted tokens; sums of case results | parse lemma, case analysis; negations with witnesses | partial |
| C117 | Elements delete their object exactly once | handles with pointer and deleter flag, objects alive and deleted | inductive invariant over all programs | proved |
| C118 | Opened file readers are independent cursors | same as C115 | refinement | proved |
| C119 | Comparing test macros and case counts | same as C116 | case analysis, induction on the list of cases | proved |
| C12 | String-view search finds the first occurrence | index loops of find/rfind | negation witnesses; partial characterisation of what the loop does return | partial |
| C120 | Log colours | printer with colour flags and escape calls per sink; terminals that show coloured text | refinement of the printer model, invariants over all histories | proved |
| C121 | Node suffix text | channels, flags, sort, text | permutation and uniqueness of sorting | proved |
| C122 | Resizing composite textures | layers, both loops of Resize | induction on the loops | proved |
| C123 | Material parameters are independent | enumerator values, parameter block | finite table of distinct ids, induction on the calls | proved |
| C124 | Colours set by the program | as C120 | complete specification of histories; negations with witnesses | partial |
| C125 | Node suffix identifies its requests | as C121 | negations with witnesses | partial |
| C126 | Deleting layers | DeleteLayer with its guards | case analysis; negation | partial |
| C127 | Blue of normal maps | ComputeBC5Blue with every float operation rounded, sqrtf correctly rounded, three conversions to char (signed by the rules, x86, unsigned) | error bounds over the rationals and reals, the gap of the dot product around 1, induction over pixels; negations for all inputs | partial |
| C128 | Bits per pixel of texture formats | `_bpps`, ComputeBPP, IsBC, the switch of ComputeBufferSize; Spec/Dxgi lists the documented layouts | finite tables for the 120 formats and 22 codes, everything else by the structure of the code; negations with witnesses | partial |
| C129 | The SSE decoder of BC1 blocks decodes BC1 | `_SDecodeBC1Block`: SSE lanes as four 32 bit words, byte shuffles as lists | the index shuffles for all 256 index bytes, stores joined into the texel stores of C35, lanes as signed integers and linear arithmetic over the fields; the negations hold for every block with the stated fields | partial |
| C13 | String-view comparison is lexicographic and total | compare loop | induction over the two lists | proved |
| C130 | Float vectors and matrices round once per operation | the polymorphic functions of `Model/Vectors.lean` and `Model/Matrix.lean` at the type `Fl` of floats (`Model/FloatVec.lean`) | round to nearest of every operation (`Lemmas/Float32Nearest.lean`, `Lemmas/Float32Ops.lean`), accumulated error bounds by linear arithmetic | proved |
| C131 | Normalize gives a unit vector in floats | Length and Normalize at the type `Fl` with the correctly rounded square root | error of the sum, of the root and of the quotient over the reals; concrete negation | partial |
| C132 | Tolerant comparison of float vectors | fltcmp, Compare, `<`, `>` at the type `Fl` | monotonicity of rounding for acceptance, error of the bound for rejection; concrete negation | partial |
| C133 | Rotations in floats | FromQuat and RotatePoint at the type `Fl` | error of one element for all shuffles, C130 | proved |
| C134 | Float vertex formats have the values stored | FLOAT and UFLOAT codecs of every format, over the layouts of C39 | channels as slices of the element (C38), layouts by C39, shift of the ten bit channel by arithmetic; concrete negations | partial |
| C135 | Motions and skeletons can be used in for loops | lists by address, implementations of `Tracks()` that lend or give, the temporary `Element`, iterators and rounds of the loop | induction on the items left; evaluation for given lists | partial |
| C136 | The text of an integer vector is its components | texts of integer vectors of 2 to 4 components, by `to_string` and by a stream | the separator does not occur in a decimal number, so cutting at blanks inverts joining (core `splitOn` lemma) | partial |
| C137 | Translation, rotation and scale of a bone | RTSValue with Compose (exact) and comparison (floats), the Python tuple | ring identities after unfolding; C132 for the comparison | partial |
| C138 | String views behave like strings and stay in their text | views as pointer and size over a memory, programs over variables | simulation of string variables, step by step; invariant for addresses | proved |
| C139 | Assigning the text of a number to a float or double | strtod and its rounding for any binary format, SetNumber for floats | text grammar to fraction; rounding to nearest proved against all floats; thresholds as rational numbers | partial |
| C14 | String-view character-set searches | set-search loops | full for find_first_of; find_last_of; negation for *_not_of | partial |
| C140 | Decimal texts of floats survive saving and loading | %g printing for any binary format on top of C139 | digits as nearest multiples in the decade; relative error of reading below half a digit; cases at powers of ten and at the smallest normal number | partial |
| C141 | Infinities, divisions by zero and NaN in float vectors | the float operations of C130 on all bit patterns | bit level facts on quieting and negation, cases on the class of the operands; the order compared with EReal | proved |
| C142 | Registered types are found | RegisterReflectedTypes, both registries as partial functions, hashes of REFLECTOR_CREATE, static initialisation as an event sequence | induction over the registrations; last one under a hash; permutations; end to end through the member tables of C65 | partial |
| C143 | Console colours on Windows | the Windows console word, SetConsoleTextColor, RestoreConsoleTextColor, the constructor | invariant on the saved word over all histories; bitwise or of components by halves | partial |
| C144 | Test functions and test programs succeed exactly when their checks hold | expression texts with C++ precedence, the macros as text, functions and programs of checks | reduction by precedence levels shown equal to the tree value by induction; lists | partial |
| C145 | Compile time fractions | GetFraction_t with its recursion, GetFraction in binary32 | evaluation of the whole (finite) domain of widths by the kernel, rational inequalities | partial |
| C146 | Loading an untrusted binary stream stays inside the object | the model of C28/C29 on arbitrary bytes | induction on the nesting, the element and member loops; the covered set of C28, and a layout condition as the compiler guarantees it | proved |
| C147 | Loading a version 2 XML document stays inside the object | the model of C63 on arbitrary documents | the per-text frame theorems of C24 at wrapped addresses, induction on the nesting and the reachable (class, node) pairs | partial |
| C148 | ZIP members that are listed are in the file | `ZIPVFS` on arbitrary bytes | loop invariant: index sound with respect to headers found in the bytes; progress measure for termination | proved |
| C149 | ZIP members can be read in any order and again | `Get` as state transformer of the shared reader | induction on the sequence; universal counterexamples | partial |
| C15 | String-view slicing is exact and bounds checked | substr/copy/remove_* | list drop/take; negation for copy count and substr(size) | partial |
| C150 | ZIP members can be read from many threads | `Get` as four steps per call, threads and mutex | invariant over all schedules; progress; work measure for termination under fair rounds | proved |
| C151 | Integer vectors compute component by component and never overflow into undefined behaviour | integer element types with promotion, overflow and conversion back; operators of the three vector classes | case analysis on the type, linear and nonlinear arithmetic, modular uniqueness | partial |
| C152 | Directory scan and FileType on Windows | `FindFirstFile`/`FindNextFile` loop; attribute tests | refinement: the Windows scan equals the POSIX scan of the tree without first finds and devices | partial |
| C153 | The Blowfish chaining modes are the published ones | five modes over lists of blocks | induction on blocks: the vector at block i, then the published rule per mode | proved |
| C154 | Printing a text and help switches | `UPrintf` in both builds on the conversions of C73, `wprintf` without arguments; `IsHelp` | induction on the format; negation with witness | partial |
| C155 | Files got from an archive are independent and can be kept | `ZIPVFSFile` as an object with an address, its implicit move, both ways `Get` may return it | simulation between objects and cursors; negation for every content | partial |
| C156 | Loading a description database stays inside its buffer | `ReflectorIO::Load` with every access of the buffer checked, numbers of items read again in every turn, 32 bit products | simulation with the unchecked model of C47, whose layout lemmas bound every table; inversion of the checked run for damaged files | partial |
| C157 | Python objects of a scene can be used as long as they are held | the elements behind Python wrappers: create, lend, give, use, drop (`Dealloc`), parts of objects | invariant relating the world to the program's variables and their lenders; deletion by an invariant over all programs | partial |
| C158 | The missing component of a unit quaternion is computed in floats | `QComputeElement` with every float operation rounded (Model/Vectors, Model/FloatVec) | error bounds of dot product, difference and square root composed over the reals; kernel evaluated witness with correctly rounded components | partial |
| C159 | Rotation matrices of floats convert back to their quaternion | `ToQuat` and `FromQuat` with every float operation rounded (Model/Matrix at `Fl`) | error bounds of sums, square root, quotient and product composed over the reals in each of the four cases; the pivot is at least 1 by the case conditions, so nothing is lost in the division | proved |
| C16 | A path splits into folder, name and extension that concatenate back | Load with last '/' and last '.' | list lemmas; negation for dotted folder and for empty reload | partial |
| C160 | Transforms of floats are composed and taken apart accurately | `Compose` and `Decompose` with every float operation rounded (Model/Matrix at `Fl`) | Cauchy-Schwarz for the row lengths, error bound of the triple product for the sign, quotients near the rotation, then C159 | proved |
| C161 | The inverse of a matrix of floats | `operator-` with every float operation rounded (Model/Matrix at `Fl`, the clamp as a float comparison) | relative error of sum of squares, reciprocal and product in turn; then the dot products with accumulated errors | partial |
| C162 | The text of a float vector is its components, rounded | `to_string` and `operator<<` of float vectors with the digits of `%f` and `%g` (Model/VectorTextFloat) | half units of the last digit from rounding half to even; splitting at the blanks; digits determine the number of millionths | partial |
| C163 | The messages of XML exceptions name the node and its place | the exceptions of `pugiex.hpp` with the name as a pointer into the parsed text (Model/XmlError) | `size_t` arithmetic; splitting at blank and colon, digits determine the number | partial |
| C164 | Registering the Python types | `PyAddType` over a dictionary and reference counts, the tables of both `InitType` (Model/PyInit) | invariant over the calls; last call for a name; the eleven names | partial |
| C17 | Exploding a path lists exactly its components | Explode loop | induction with accumulator | proved |
| C18 | Typed stream writes are read back identically in either endianness | stream state (bytes, pos, origin, stack, swap) | round trip by induction on the value list; invariants over histories | proved |
| C19 | Counted containers and C strings survive the stream | stream state (bytes, pos, origin, stack, swap) | round trip by induction on the value list; invariants over histories | proved |
| C20 | Push/Pop and relative origins navigate consistently | stream state (bytes, pos, origin, stack, swap) | round trip by induction on the value list; invariants over histories | partial |
| C21 | Padding lands on the next aligned position | stream state (bytes, pos, origin, stack, swap) | round trip by induction on the value list; invariants over histories | proved |
| C22 | Power-of-two test and whitespace trimming | `n & (n-1)`; trim loops | bit argument; list lemmas | proved |
| C23 | Setting an integer field saturates and reports | text parse + clamp | case analysis on ranges, parametric in width | partial |
| C24 | Assigning a field touches only that field | object memory as byte list, field extents | frame lemma for every setter | partial |
| C25 | Enum fields round-trip through their names | text printers and setters over a field memory | round trip lemmas | partial |
| C26 | Enum-flag fields round-trip through their text | text printers and setters over a field memory | round trip lemmas | partial |
| C27 | Array fields take exactly the listed elements | text printers and setters over a field memory | round trip lemmas | partial |
| C28 | Binary save and load of reflected objects is a round trip | recursive value/schema model of the binary format | mutual structural induction | partial |
| C29 | Binary load tolerates unknown fields | recursive value/schema model of the binary format | mutual structural induction | partial |
| C30 | The threaded queue runs every task exactly once with bounded concurrency | transition system (task states, slots, poll index) | invariant over all schedules; termination measure; negation for zero hardware threads | partial |
| C31 | A hybrid allocator never frees or double-hands out foreign memory | allocator state and history | invariant; negation for growth aliasing | partial |
| C32 | Pointer fixups are applied once and resolve to root plus offset | address map, used list | invariant over histories | partial |
| C33 | A ZIP archive is indexed completely and entries are returned verbatim | byte-level archive parser | round trip against an abstract archive builder | partial |
| C34 | Swizzled texture addressing is a bijection | masks/shifts address computation | bit-extensional bijection | partial |
| C35 | Block decoders write each texel of the block once from its own index bits | decoders writing to an image function | frame + value theorem | proved |
| C36 | DDS mip layout is contiguous | mip loop | induction on mip index | partial |
| C37 | DDS legacy format conversion is a partial inverse | finite mapping tables | case analysis over the whole table | proved |
| C38 | Vertex format sampling reads element i at its own stride offset | bit slices and stride loop | list/bit lemmas | partial |
| C39 | Half-float decoding is exact | integer-level decode to rational value | finite 2^16 by structural argument; negation | partial |
| C40 | Matrix algebra laws | matrices over a commutative ring / field | `ring`; floats in C130 to C133 | partial |
| C41 | Directory scanning lists exactly the matching files | recursive tree | structural induction | partial |
| C42 | The log printer delivers each message intact to every sink once | printer buffer state machine | induction over history; negation when residual text remains | partial |
| C43 | Virtual lists iterate all elements in order | iterator loop | induction | proved |
| C44 | Field lookup by name hash, then by alias | table lookup | list lemmas | proved |
| C45 | Enum value assignment follows declaration text | fold over enumerator declarations | induction | partial |
| C46 | Bit-field reflected members accept their value range | text parse + clamp | case analysis on ranges, parametric in width | partial |
| C47 | Reflected class descriptions survive database save/load | database image with fixups | negation: alias hashes lost; partial | partial |
| C48 | RIFF chunk traversal visits every chunk | Next() offset arithmetic | negation with witness; partial | partial |
| C49 | Vector component operations act per lane | lanes over commutative ring | `ring`; bit-level SwapEndian | partial |
| C50 | Every byte of the Blowfish key takes part in the key schedule | key schedule's packing of signed characters | partial + negation for characters above 0x7f | partial |
| C51 | Names that differ in one character have different hashes | two texts of equal length differing in one character | algebra of the textbook hash; negation witness for the library's finalisation | partial |
| C52 | FourCC constants equal the four bytes as they appear in a file | shifts of sign extended characters | bit-extensional; negation | partial |
| C53 | Hex digit lookup accepts exactly the hex digits | table lookup with the table's 256 entries | case analysis; negation outside | partial |
| C54 | Legacy DDS channel masks describe the channels of the format | DDS mask table per format | case analysis over the whole table; negation | partial |
| C55 | Half-float encoding inverts decoding | float encoders on exact values | exponent/mantissa arithmetic; negation witnesses | partial |
| C56 | Normalised vertex channels map zero to 0.0 and full scale to exactly 1.0 | normalised channel = round(raw * 1/max) in exact IEEE arithmetic (`Float32`) | rounding error bound; negation | partial |
| C57 | Blowfish is the published cipher | Feistel network and key schedule against a separate specification (`Spec/Blowfish`) | refinement, induction on rounds; the tables against `Real.pi` by Machin's formula with exact partial sums evaluated by the kernel | partial |
| C58 | JenkinsHash3_ is Bob Jenkins' lookup3 | lookup3 against Bob Jenkins' published hashword (`Spec/Lookup3`) | refinement by 12 byte blocks; negation | partial |
| C59 | Element access of reflected lists | sub-value accessors of lists, components, flags | read lemmas over the byte memory | partial |
| C60 | Assigning boolean texts | hash and name lookup | list lemmas | proved |
| C61 | Saving a reflected object as XML and loading it | XML V1 save/load over a tree type | structural induction over class nesting | partial |
| C62 | Loading an arbitrary XML document | XML V1 load on arbitrary documents | frame invariant over documents; negation | partial |
| C63 | Saving with SaveV2 and loading with LoadV2 | XML V2 save/load | structural induction; negations | partial |
| C64 | Registration macros visit every listed item | macro count table and loop | finite table + list induction | partial |
| C65 | Generated member tables describe the class | registration of member tables from C types | arithmetic of truncations; independence of members | partial |
| C66 | Typed setters store the number given | typed get/set overloads | read/write lemmas; negation | partial |
| C67 | Name and value pairs of members | name/alias/description tables | list lemmas; negation | partial |
| C68 | Members of a registered bit field are read by name | bit field classes reached by name | layout lemmas; negation | partial |
| C69 | Folders are made for every file | mkdirs on a POSIX folder model | invariant over the sorted set of folders; negation | partial |
| C70 | FileType tells directories from files | mode bits of `stat` | case analysis over the file types; negation | partial |
| C71 | A wrong header is named in the error | message builder on the bytes of the number | list/hex lemmas; injectivity; negation | partial |
| C72 | ZIP records are exchanged in the published layout | in-memory layout with alignment, block reads and writes | generic layout lemma instantiated for six records | proved |
| C73 | Unicode conversions keep the text | codecs as functions on code points | induction over the text; negation | partial |
| C74 | Python lists and enums behave like Python's | object with reference count and position; interpreter loop | induction over the items and loops; negation | partial |
| C75 | Help and log list every setting | text built by the loops | structural induction over the help tree; negation | partial |
| C76 | Colours of BC1, BC2 and BC3 texels are interpolated from the block's two end colours | float palette of the colour blocks | error bounds over ℚ for every rounded operation, end colours by evaluation of all field values | partial |
| C77 | Normalised and unpacked vertex data are accurate | exact float sampling, `Resample` over lists of lanes | signed error bounds over ℚ for every rounded operation, composed | partial |
| C78 | Sampling a motion track from Python | conversion and dispatch loops of `get_values` | induction over the times; negation | partial |
| C79 | Bones in Python | bone table, reference and block counters | induction over the history and the chain; negation | partial |
| C80 | Errors of the scene interfaces can be handled | exception classes with base lists, slicing | case analysis of all accessors; negation | partial |
| C81 | The correction matrix is described by its text | text loops over a float matrix | reader as left inverse; negation | partial |
| C82 | XML helpers hand over options, errors and children faithfully | option folds, status map, child loop | induction over the option list and children; finite status table | proved |
| C83 | Reflected enums in Python | index and name lookup | list lemmas; negation | partial |
| C84 | BC1 with transparency | decoders writing to an image function (C35); float palette of the colour blocks (C76) | frame + value theorem (C35); error bounds over ℚ for every rounded operation, end colours by evaluation of all field values (C76); negation | partial |
| C85 | Searching a set of characters | set-search loops (C14) | full for find_first_of; find_last_of; negation for *_not_of (C14) | proved |
| C86 | Cutting a string view | substr/copy/remove_* (C15) | list drop/take; negation for copy count and substr(size) (C15) | proved |
| C87 | Seeking under relative origins | stream state (bytes, pos, origin, stack, swap) (C20) | round trip by induction on the value list; invariants over histories (C20) | proved |
| C88 | Assigning text to unsigned integer members | text parse + clamp (C23) | case analysis on ranges, parametric in width (C23) | proved |
| C89 | The thread queue starts and finishes every task once | transition system (task states, slots, poll index) (C30) | invariant over all schedules; termination measure; negation for zero hardware threads (C30) | proved |
| C90 | Allocators without a foreign buffer and hybrid deleters | allocator state and history (C31) | invariant; negation for growth aliasing (C31) | proved |
| C91 | Pointer fix-ups of one thread | address map, used list (C32) | invariant over histories (C32) | proved |
| C92 | Colours of BC1, BC2 and BC3 blocks | float palette of the colour blocks (C76) | error bounds over ℚ for every rounded operation, end colours by evaluation of all field values (C76) | proved |
| C93 | DDS level table | mip loop (C36) | induction on mip index (C36) | proved |
| C94 | Matrix, quaternion and transform algebra | matrices over a commutative ring / field (C40) | `ring`; floats in C130 to C133 | proved |
| C95 | Vector algebra | lanes over commutative ring (C49) | `ring`; bit-level SwapEndian (C49) | proved |
| C96 | Loading XML changes members only | XML V1 load on arbitrary documents (C62) | frame invariant over documents; negation (C62) | proved |
| C97 | Loading binary data of another class or version | recursive value/schema model of the binary format (C29) | mutual structural induction (C29) | proved |
| C98 | Swizzle addresses never collide | masks/shifts address computation (C34) | bit-extensional bijection (C34) | proved |
| C99 | Half floats decode exactly into vectors | integer-level decode to rational value (C39) | finite 2^16 by structural argument; negation (C39) | proved |


## What is missing or violated

| id | missing or violated |
|---|---|
| C02 | Code violates the property for values below -2^55 (wrong value or one byte left over); bint128_outcome gives the exact result for every value, the round trip holds iff value >= -2^55. |
| C07 | An empty key divides by zero (xor_empty_key). |
| C09 | Sizes up to 2 GiB. Violated above: the int index overflows (2 to 16 GiB, undefined) and from 16 to 32 GiB nothing is encrypted at all. |
| C100 | The part of C69 that holds. |
| C101 | The part of C42 that holds. |
| C102 | The part of C79 that holds. |
| C103 | The part of C78 that holds. |
| C104 | C26 for whole words. |
| C105 | The integer part of C27 and C59. |
| C106 | The part of C67 and C75 that holds. |
| C107 | The part of C73 that holds. |
| C108 | The key schedule is C57. |
| C109 | The part of C33 that holds. |
| C11 | Violated: for lengths 24, 36, ... the last 12 bytes are ignored. |
| C110 | The part of C38 that holds. |
| C111 | The part of C47 that holds. |
| C112 | The part of C48 that holds. |
| C113 | The part of C16 that holds. |
| C114 | Complete description behind C02. |
| C115 | Refinement for programs that open once and do not move. Violated: an object cannot be reopened (the second Open reports FileNotFound and fails the stream; Close_ is protected and never called); a moved object still uses the stream of the old one; use before Open dereferences null. |
| C116 | Violated: arguments are pasted without parentheses, so TEST_CHECK(a == b) is !a == b; comparing macros tear weaker operators apart; negative results cancel failures. |
| C117 | release(), reset() and get() by the client are not among the operations. |
| C118 | The part of C115 that holds. |
| C119 | The part of C116 that holds. |
| C12 | Violated: matches at the very end are missed, the first needle character is not compared, rfind reads before the view. |
| C120 | The console functions do not take the lock; their calls are modelled as happening between flushes. POSIX branch. |
| C121 | std::sort is modelled by a sort whose result is unique. |
| C122 | The 3ds Max interface behind it is a list of layers. |
| C123 | The parameter block of 3ds Max is a map; types of values are not distinguished. |
| C124 | Complete description of what is shown. Violated: an informational message has the colour set by the program on the first sink only, because each coloured sink's round resets all sinks; large numbers overflow buffer[32]. |
| C125 | Violated: channels are written without separator; AddFullColor adds -2 on every call. |
| C126 | Violated: negative positions reach the interface when there are several layers. |
| C127 | Holds to 2.2 steps for whole pixels on x86 and where char is unsigned. Violated by the language rules: with a signed char the conversion is undefined for every pixel inside the unit circle; sizes that are not a multiple of 3 are read past the end. |
| C128 | Exact for every format but 15: formats that pair pixels count twice (R8G8_B8G8, G8R8_G8B8, YUY2, Y216), P010, P016 and 420_OPAQUE have wrong sizes, palettes and five video formats count as empty; UYVY has no size; typeless block formats are not laid out in blocks. The enumerators P208, V208, V408 also have values that differ from the documented ones. |
| C129 | End colours are within 7 of 255 for every block and nothing else is written. Interpolated colours are within 9 only if the end colours lie in the same half of every channel; whenever they lie in different halves of a channel the result is off by more than 70 (lanes are signed bytes). With pixeloffset 4 the twelve bytes of a row are stored without gaps, so the last texel of each row is never written. |
| C130 | The same functions as in C40 and C49 with the operators of float. No fused operations, no excess precision (x86-64 SSE). |
| C131 | Holds when the sum of the squares is between 2^-100 and 2^120. Violated outside: (2^64, 0, 0, 0) is normalized to the zero vector (the square is infinite) and (2^-80, 0, 0, 0) is left alone (the square is zero). |
| C132 | Violated: not symmetric. 2 == 2 + 2^-22 but 2 + 2^-22 != 2, because the bounds are computed from the second operand and rounded. equal_nearly is for components up to 2^126. |
| C133 | What the exact functions do is C40 / C94 (RotatePoint rotates by the conjugate quaternion). |
| C134 | 32 bit floats and vectors of half floats (but NaN) are exact. Violated: a single half float -0 is read as -1 (all negative ones with exponent zero are wrong), NaNs of half float vectors become infinite (C39), subnormals of R11G11B10 are 16 times too small, its blue has the top bit of green below its own bits. |
| C135 | Holds for every class that lends its list. Violated: begin() makes the iterator of a temporary Element, so a list that is given away is deleted before the loop starts, and the first round reads deleted memory, for every list that is not empty. |
| C136 | Violated by streams for all vectors of int8 and uint8: their components are written as characters. to_wstring is declared to return string and cannot be compiled; floats are C162. |
| C137 | Exact arithmetic over commutative rings for the transforms, floats for the comparison. Violated: the fourth component of the default translation is 0, so a bone with the default value in front of its parent loses the parent's position. Symmetry of the comparison: C132. |
| C138 | Pointer level model; the documented preconditions (n <= size, C strings end) are hypotheses on the program. |
| C139 | Violated: a positive number of at most 2^-1075 (such as 1e-400) stores the negative smallest normal number, because atof returns 0 and the test is fVal > 0. strtof/strtod are modelled by their definition (correctly rounded). |
| C14 | find_first_of / find_last_of (non-empty view) are right; the *_not_of searches are wrong for sets of more than one character. |
| C140 | Violated: %.6g and %.13g are too short, so most floats and doubles come back changed (float_survives_iff says exactly which do not), and subnormal numbers come back as the smallest normal number. Proved: the text is the correctly rounded one, short numbers survive, texts are stable. |
| C141 | The payload of a NaN and the sign of the default NaN are those of x86; contraction to fused operations is excluded (trusted). |
| C142 | Violated: classes created without flags all have the hash 0, so only the last one registered is found; names with equal 32 bit hashes (ChunkLayer, ChunkRoomColor) replace each other silently; static registration objects initialised before the maps use maps that are not constructed. Proved without clashes and with the maps first. |
| C143 | Violated: RestoreConsoleTextColor() sets grey on black instead of the saved attributes, so the colours of any other console are lost. |
| C144 | Violated: the macros paste their arguments without parentheses, so TEST_CHECK(a == b) tests !a == b (TEST_CHECK(1 == 2) succeeds) and arguments with &, \|, &&, \|\| or a second comparison are torn apart; the ordering checks accept NaN; return values other than 0 and 1 can cancel. Proved for arguments whose operators bind tighter than the comparison. Side effects, overflow and operators not listed in the model are excluded. |
| C145 | Violated in its last part: GetFraction rounds to the nearest float, GetFraction_t down, so the widths 2, 3, 4, 6, 8, 12 and 24 differ by one unit in the last place. |
| C146 | Behind the end of a stream the program goes on with whatever its variables hold; taking that as arbitrary bytes this is the claim for the stream continued by them. Skips of 2 GiB or more, members of class type that are not registered and integers of more than 8 bytes have no answer in the model and are outside the claim. |
| C147 | Every document whose indexed names and axes are meant for elements and components that exist and whose texts are not longer than a list of bools, flags or strings; nothing is assumed about names of no member, missing members, repeated members, or values. Violated: an item number behind the end of a list and an unknown axis write outside the object. |
| C148 | Any file below 2^62 bytes, any origin and state of the reader; no assumption about the content for soundness. |
| C149 | Every file whose lengths are below 2 GiB and whose listed members lie in the file, every sequence of names. Violated: a truncated archive opens without error and reading its incomplete member fails the shared reader for all others; a stored member of 2 GiB or more makes opening itself fail the reader silently (the length is converted to int), so that nothing can be read and nothing behind it is listed. |
| C15 | substr and remove_* are right; copy writes one character too many, and nothing with the default count. |
| C150 | Calls for members that lie in the file (see C149 for others); std::mutex is its specification; steps are the statements that touch the reader or the mutex. The stream is used by this archive only. |
| C151 | Violated: uint16 products from 2^31 (and unary minus of components from 32769) overflow the int they are promoted to; << of a negative or too large component is undefined (C++14); Length of 8 bit vectors longer than the element type holds is undefined; Normalize of integer vectors gives -1, 0, 1 and loses the direction. Length/Normalize are proved for 8 and 16 bit elements and any root function close enough to the exact one. Shifts by a scalar do not compile unless the element type is int32 (not modelled). |
| C152 | Violated: what FindFirstFile returns is thrown away, so a folder that does not list '.' first (a drive root) loses its first entry; a missing path is Invalid here and Error on POSIX. Names are the UTF-8 texts after std::to_string. |
| C153 | Buffers up to 2 GiB; larger ones fail as C09 says. |
| C154 | Violated in builds with UNICODE: the text is used as a format string, so it is printed as it is exactly when it has no percent sign; '%' followed by anything but '%' is undefined. wprintf is modelled from the C standard. |
| C155 | Violated: a moved file still reads from the buffer it was moved from (nothing, undefined once that is gone, or the bytes of another member put in its place); the same when the compiler does not elide the copy of Get's result (allowed). |
| C156 | Proved for every file written by Save (below 2 GiB). Violated for damaged files: no count or offset is compared with the size of the buffer, so every file whose records, enum names or member names do not fit makes Load write behind the buffer; the pointer to alias hashes is stored over the pointer to the aliases. Not modelled: memory for the lists of classes and enums, alignment. |
| C157 | Violated: a wrapper holds no reference to the wrapper it was lent from, so dropping a skeleton or motion that Python owns leaves its lists and their items dangling (bones = Skeleton().bones; len(bones)). Proved when parts are dropped first, and when the C++ program keeps the scene and lends everything; deletion exactly once in every program. Not modelled: given lists that refer to their giver. |
| C158 | Violated: nothing keeps 1 - \|v\|^2 from being negative, so quaternions whose missing component is about zero (rotations by 180 degrees) may give NaN, e.g. (20,28,29,0)/45. Proved to 2^-20 when the square of the rest is at most 1 - 2^-20. An old value in the place of the component is counted (C95). |
| C159 | Elements up to d off (2^-18 <= d <= 2^-16) give components up to 16 d off. Stored unit quaternions (2^-23) come back up to sign and 2^-14. The fourth element of the second row must be 0, as the code reads it (C40). |
| C16 | Violated when the last dot is in a folder name, and when an empty path is loaded over an old one. |
| C160 | Elements up to 2^-18 of the scale off; scales come back up to 2^-16 of them, quaternions up to 2^-12. Scales of different signs cannot be told from a rotation (C40, decompose_mirror). |
| C161 | Partial: the product is near the identity only without a translation (the fourth row is minus the inverse's rows, not columns, times the translation: C40 and inverse_identity_violated), and rows shorter than 0.001 are only transposed (inverse_small_row). |
| C162 | The C library's %f and %g are modelled by their definition (Model/FloatText). Partial: the text does not determine the vector (float_text_lossy_violated). |
| C163 | Violated as a position: the code assumes a header of 25 characters, pugixml writes one of 23 (offset_violated). Nodes without a name or added after parsing are not covered: the code subtracts pointers into different arrays (undefined). |
| C164 | Violated: when the module does not take a type its reference is leaked; InitType goes on after failures and returns nothing, with an exception set (failure_silent); eight of the eleven names hold colons, so Python code reaches these types by getattr only. |
| C17 | Non-empty paths; exploding the empty path is undefined behaviour (explode_empty_ub). |
| C19 | On good streams. On a stream that already failed ReadString may not end (readString_failed_violated). |
| C20 | Violated after reading past the end (sticky failure) and for nested pushes (one slot). |
| C22 | The results are right; on blank views one character outside of the view is read (trim_overread_violated). |
| C23 | Unsigned fields are proved for every text; signed ones for texts that do not put blanks other than space/tab before the minus (then saturation goes to the wrong bound). Bool fields store false on malformed text. |
| C24 | Lists of bools, flags and strings: proved for texts with fewer commas than the list has elements, and for every text that no more than one element per comma is reached; violated for a blank trailing item, and for element numbers out of range. |
| C25 | Violated for negative enumerators of enums narrower than 8 bytes (printed as empty text). |
| C26 | Round trip for words whose set bits are all registered; printing a single bit above 31 is undefined behaviour. |
| C27 | Violated for quoted items (nothing assigned), lists with too few items (not reported) and blank trailing items. |
| C28 | Round trip for every class table, object, following stream and target object, with all field kinds; excluded because the code fails there (witness theorems): int64 below -2^55, classes nested two or more levels deep, arrays of arrays. |
| C29 | Class mismatch, count mismatch, unknown items anywhere, other class versions; chunks of 2 GiB or more are skipped with a negative offset and excluded. An error of an earlier field is overwritten by a later good field (violated). |
| C30 | Safety for every schedule; termination for every fair run on a machine reporting at least one hardware thread. When hardware_concurrency() is 0 the call never returns (violated). |
| C31 | Sound for every history in which the client does not allocate while it holds the foreign buffer; a growing std::vector does, and gets the same memory twice and deletes foreign memory (violated). |
| C32 | All histories of one thread. The list of fixed pointers is per thread and outlives the data (violations). |
| C33 | Every archive of stored members (below 2 GiB each) and directory records, at any origin. Violated: empty members are not listed; members with sizes in a data descriptor are neither refused nor skipped; a wrapped skip length makes opening loop forever. |
| C34 | Bijection for every supported size that is at least as wide as high; injective for all supported sizes. For every texture higher than wide an address outside of the texture is produced, and rectangles with a side below 16 write outside of the mask arrays (violated). |
| C35 | All block contents, positions and image sizes the 32 bit arithmetic can address. The colours of a colour block are a parameter here (any palette); C76 puts the ones of the code in. BC1 with alpha: C84. |
| C36 | Offsets and sizes for every texture below 4 Gibit per level; whole blocks for levels whose sides are multiples of 4 or at most 4. Violated for other sides, for flat levels, above 4 Gibit, above 15 levels, and for typeless block formats. |
| C37 | Both directions for every header; the reverse direction assumes a header whose alpha mode was not set before (stale_alpha_violated). |
| C38 | Every buffer, stride, count and format; integer channels are exact bit slices. Violated: R32 and R32G32 integer codecs read 12 bytes, R16G16B16, R8G8B8 and R32G32 normalised codecs read past their element, and some channels of R5G6B5 and R11G11B10 mix in a neighbour's bit. Float codecs: see C39. |
| C39 | Vector decoding of every half float that is no NaN is exact, scalar decoding of all but the 1024 negative ones with exponent zero (those are near -1: violated); also for every other layout's zeros, normals and infinities. Vector decoding turns NaNs into infinity. |
| C40 | Exact arithmetic over commutative rings, ordered fields and the reals, against Mathlib's matrices and quaternions; floats with rounding are C130, C131 and C133. Violated: the inverse of a rotation with translation is wrong (m * -m has translation t B - B t), rows shorter than 0.001 are not inverted, the 3x3 transpose loses fourth components, RotatePoint rotates by the conjugate quaternion. |
| C41 | Every tree, depth and filter set whose folder names do not end in a quote or backslash (those are mis-scanned: violated). Readdir order is a parameter. Every scan of a finitely nested tree ends. |
| C42 | Every interleaving of any number of threads, NUL-free text, flushing through >>. The public FlushAll() without the terminator shows stale text, and NUL cuts text (violated). |
| C43 | Iterators constructed at an explicit position of 0xffffffff or more become the end iterator (explicit_position_violated). |
| C45 | Proved for literal initialisers; expressions, octal, binary and negative hex literals get wrong values. |
| C46 | Violated for signed members, for malformed text (member cleared) and for members of 31 bits or more (int shift). |
| C47 | Every database of any size below 2 GiB, every buffer address; complete without alias hashes. Violated: alias hashes are always lost; saving behind other data writes the header to the start of the file. Loading with an object that already holds classes converts their pointers again (load_again_violated; modelled for classes only, without moving the buffer). |
| C48 | Next() lands 8 bytes before the following header for every chunk (violated); proved for the corrected step. |
| C49 | Exact arithmetic; floats with rounding are C130 to C132. Violated: \|= of four plain components stores the and, <= and >= are not lane by lane, IsSymetrical ignores the fourth component, unsigned lanes convert to negative floats, QComputeElement uses the old element. |
| C50 | Violated for key bytes >= 0x80: sign extension wipes the bytes packed before them. |
| C51 | True of the textbook hash at equal length; the library's finalisation breaks it (witness: two 6-character names). |
| C52 | All tags of 7-bit characters. Violated: a character above 0x7f is sign extended and sets all higher bytes. |
| C53 | All characters up to 'f'. Violated: 'g' reads the terminator (0), later characters read past the table. |
| C54 | Right for R16G16, A8, B5G6R5 and B5G5R5A1; red and blue are exchanged for 8 and 4 bit channels, and R10G10B10A2 loses its alpha mask. |
| C55 | Proved for the ranges the encoders handle; violated for all positive normals below 0.5 (vector), -1.0, 1.0 (scalar), negative subnormals. |
| C56 | Every format and channel whose bits are extracted cleanly, with exact round-to-nearest-even arithmetic. Violated: most negative signed value is below -1, red of R5G6B5 never reaches 1, blue of R11G11B10 depends on green. |
| C57 | Encryption of a block is the published network for every key and block; the key schedule is the published one for keys of 7-bit characters, whatever the initial tables; the literal tables are proved to be the binary digits of Real.pi, so the cipher is Schneier's. Missing: 8-bit key characters, where the code deviates (C50). |
| C58 | Equal to hashword for every text and seed except lengths 24, 36, 48, ...: there the closing step is left out (violated). |
| C59 | Integer elements and components of every list, class elements; single flags 0 to 30. Flag 31 and above is violated (int shift). |
| C61 | Every class and nesting, every value whose text denotes it (integers, 0/1 bools, registered enumerators and flags, floats that their decimal text denotes, lists of these, lists of vectors, lists of strings without commas, brackets and markup, strings without XML markup that do not start with a blank, bit members up to 30 bits). pugixml is a tree type and a fragment parser that keeps plain text. Violated: strings with markup are inserted as XML, leading blanks of strings are dropped, signed bit members below zero are loaded as another value. With the real texts of floats and doubles (C140): objects of floats, doubles, and arrays and vectors of them are restored to the bit when some text of 6 (13) digits denotes each (xml_float_roundtrip, xml_float_tree_roundtrip for nested classes); other floats come back changed (xml_float_lossy_violated). |
| C62 | Every document; with lists of bools, flags or strings every document in which their texts have fewer commas than elements (see C24). Violated: an item number behind the end of a list of classes dereferences a null instance. |
| C63 | Round trip for every class, nesting and document, values as in C61 plus flags below 31, vectors of at most four components; lists need member names and vectors in lists no more components than a component has bytes. Excluded as violated in C61: signed bit members below zero, strings with markup (as nodes) or a leading blank. Violated: unknown child with attributes (null dereference), item number or axis name out of range (write outside the member), lists of vectors of two bytes, lists without member names. With the real texts of floats and doubles: objects of floats, doubles and vectors of up to four of them. |
| C64 | Every list of 1 to 86, or 89, items, and rejection of 90 or more. Violated for exactly 88 items (last one silently dropped) and 87 (an empty item is added): the count table has 87 and 88 exchanged. |
| C65 | Every class with offsets below 64 KiB, elements below 256 bytes and fewer than 65536 of them. Violated silently beyond these limits, and for arrays of arrays. Independence for lists of bools, flags and strings needs texts with fewer commas than elements (C24). offsetof and sizeof are inputs of the model; std::string has 32 bytes. |
| C66 | Every integer width and element above 0, floats up to the narrowing conversion (a parameter). Violated: the first element of every list is refused, numbers that do not fit are stored truncated with success. |
| C67 | Every EXTENDED class, member, description and setting. Violated: aliases of a VARNAMES class and formatted values of a class that is not EXTENDED index a null table (so SettingsManager::CreateLog is undefined for a VARNAMES class). |
| C68 | Bit fields whose members are registered from the first on in declaration order, members of at most 30 bits. Violated for any other order or when leading members are left out. |
| C69 | Every tree without symbolic links, permissions and limits (the host is a POSIX model), NUL-free names, an empty base or an existing folder ending in a slash. Violated for a base without its slash (folders are made beside it) and for a base that does not exist (nothing is made). |
| C70 | Every mode; sockets and block devices are reported as directories (violated). |
| C71 | Every 32 bit number. Violated: what follows a zero byte is left out; 64 bit numbers and negative int32 numbers without a zero byte are read past their end. |
| C72 | All six record types, every value, natural alignment, streams without endian swapping. |
| C73 | Every text of Unicode scalar values; std::codecvt is modelled by the UTF-8/16 definitions. Round trip for non-empty texts below U+10000. Violated: characters above U+FFFF do not survive the wide round trip; the empty string is undefined. |
| C74 | Every list, index and enum. Violated: each for loop drops a reference it never took, nested loops share one position, indexes out of range throw a C++ exception through the interpreter, unknown enum names return null without an exception. |
| C75 | Every EXTENDED class of any nesting. Violated: classes that are not EXTENDED (null table), unregistered member classes (exception), values of flags and of lists of enums (left out). |
| C76 | IEEE single precision with every operation rounded, all end colours. Violated: in three colour blocks the middle colour is 127/255 of the sum, so the middle of white and white is 254; interpolated values that are whole numbers can be one lower. |
| C77 | Every format, buffer, count, stride and all floats whose results stay in range; IEEE single precision, every operation rounded once (no FMA contraction). Only for channels whose bits are extracted cleanly (the others are violated, C56: red of R5G6B5, blue of R11G11B10), and without the most negative signed number. |
| C78 | Every track and list of numbers. The interpreter is a parameter (number conversion). Violated: a list with an item that is no number returns values with an exception set; negative or too large frame rates wrap around with success. |
| C79 | Every skeleton and history of reads. Violated: the parent of a root gives away a reference of None it never took; wrappers are never freed; different bones are each greater than the other. |
| C80 | Violated: the error is sliced to std::exception (type and message lost), ModifyError derives privately so no std handler takes it. |
| C81 | Every matrix that maps axes to axes (what the presets are for). Violated for rows with several entries: the text is ambiguous. |
| C82 | pugixml's constants are the specification, its parser a status parameter, its tree the type of C61. |
| C83 | Every enum of distinct names and every valid index. Violated: indexes out of range are undefined behaviour, unknown names return null without an exception, negative enumerators become huge. |
| C84 | Colours for all blocks; alpha only where the code writes it. Violated: alpha stays unwritten for four colour blocks. |
| C85 | The part of C14 that holds. |
| C86 | The part of C15 that holds; copy is violated there. |
| C87 | The part of C20 that holds. |
| C88 | The part of C23 that holds for every text. |
| C89 | Safety part of C30, including zero hardware threads (the call then does not return). |
| C90 | The part of C31 that holds for every client. |
| C91 | The part of C32 that holds; the list of fixed pointers starts empty and belongs to the thread. |
| C92 | The four colour part of C76. |
| C93 | The part of C36 that holds; whether a level is a whole number of blocks is C36. |
| C94 | The part of C40 that holds; exact arithmetic; floats with rounding are C130, C131 and C133 (ToQuat, Decompose and the inverse only exactly). |
| C95 | The part of C49 that holds. |
| C96 | The part of C62 that holds; definedness is C62. |
| C97 | The part of C29 that holds. |
| C98 | The part of C34 that holds for all supported sizes. |
| C99 | The part of C39 that holds. |


## What is modelled

Function by function: base_128, endian, bitfield, flags, blowfish and xor encryption, jenkinshash, jenkinshash3, string_view
(all searches, comparison, slicing), fileinfo, binreader/binwritter (core, ref, stream), supercore, reflector (setters,
getters, printers, registration macros, enum registration, binary save/load, reflector_io database, XML V1 and V2),
settings_manager (help, log), macroLoop, multi_thread, allocator_hybrid, pointer, zip_vfs and formats/ZIP records,
addr_ps3 and Morton addressing, BlockDecoder, DDS, WAVE, float, uni format codecs, vectors, vectors_simd, matrix44,
directory_scanner, stat (mkdirs, FileType), except, master_printer, virtual_iterator, unicode/tchar (TCHAR text, UPrintf, IsHelp), zip_vfs file objects,
ReflectorIO::Load with checked accesses, python lists and enums.

## What is not modelled

* 3ds Max interfaces (`MAXex/` apart from the parts named in the table), `es::mkdir` of `stat_win.inl` (the Windows directory scan and FileType are modelled, C152, the console colours by C143).
* pugixml (a tree type with its documented operations and a plain text fragment parser stands in), the C++ streams (a byte
  list with position and failure state), `std::string`, `std::map`, `std::vector`, `strtol`-like conversions (modelled by
  their documented contracts), CPython (reference counts and the loop protocol only), the file system (a tree, no links or
  permissions), the host's codecvt facets.
* Decimal text of floats: `strtof`/`strtod` and `%g` are modelled by their definition in C (correct rounding, "C" locale; Model/FloatText);
  the older reflection theorems take the conversions as parameters, `cEnv` instantiates them.
* Object layout chosen by the compiler: offsets and sizes are inputs; `std::string` has 32 bytes as in libstdc++.

## Trusted base

* Lean's kernel. No axioms besides `propext`, `Classical.choice` and `Quot.sound`; the table below is the output of
  `#print axioms`. No compiled evaluation is trusted; `decide` and `decide +kernel` are used for finite tables and concrete witnesses
  only and are checked by the kernel.
* The fidelity of the hand-written model to the C++ code, which was read but not executed. `seeded/` records how the theorems
  react to deliberately wrong models.
* The contracts of the libraries listed above.

### Axioms of each theorem

| claim | theorems (axioms: p = propext, c = Classical.choice, q = Quot.sound, – = none) |
|---|---|
| C01 | `Base128.buint128_roundtrip` cqp, `Base128.buint128_prefix_free` cqp |
| C02 | `Base128.bint128_outcome` cqp, `Base128.bint128_roundtrip_partial` cqp, `Base128.bint128_roundtrip_violated` cqp, `Base128.bint128_desync` cqp |
| C03 | `Endian.fbswap_reverses` qp, `Endian.fbswap_involutive` qp, `Endian.fbswapArray_image` qp, `Endian.fbswapArray_involutive` qp |
| C04 | `BitField.get_layout` qp, `BitField.layout_disjoint` qp, `BitField.field_get_set_same` cqp, `BitField.field_get_set_other` cqp, `BitField.field_set_frame` cqp, `BitField.field_get_value` cqp |
| C05 | `BitField.swapOut_mirrored` cqp, `BitField.swapEndian_roundtrip` cqp, `BitField.swapEndian_roundtrip_members` cqp |
| C06 | `Flags.flags_refine_set` cqp, `Flags.flags_history` cqp, `Flags.flags_construct` qp, `Flags.flags_eq_iff` qp |
| C07 | `Crypt.xor_roundtrip` cqp, `Crypt.xor_empty_key` qp |
| C08 | `Crypt.blowfish_decode_encode` qp, `Crypt.blowfish_encode_decode` qp |
| C09 | `Crypt.blowfish_mode_roundtrip_partial` cqp, `Crypt.blowfish_mode_reverse_partial` cqp, `Crypt.blowfish_ofb_symmetric` qp, `Crypt.blowfish_large_violated` qp |
| C10 | `Jenkins.jenHash_spec` qp, `Jenkins.jenHashCannon_published` qp, `Jenkins.jenHash_append` qp, `Jenkins.jenHash_order` qp |
| C100 | `Mkdirs.mkdirs_one` cqp, `Mkdirs.mkdirs_one_only` qp, `Mkdirs.mkdirs_batch` cqp, `Mkdirs.mkdirs_batch_here` cqp, `Mkdirs.mkdirs_batch_only` qp |
| C101 | `Printer.printer_delivers` cqp, `Printer.printer_message` cqp |
| C102 | `Py.ancestors_chain` qp, `Py.parents_not_deleted` p, `Py.compare_equal` –, `Py.compare_equivalence` p |
| C103 | `Py.get_values` qp, `Py.get_values_refuses` – |
| C104 | `Refl.flags_roundtrip` cqp |
| C105 | `Refl.int_list_assign` cqp, `Refl.int_list_roundtrip` cqp, `Refl.sub_get` cqp, `Refl.sub_set_get` cqp, `Refl.elem_get` cqp, `Refl.subclass_elem` qp, `Refl.subclass_member` qp, `Refl.subclass_none` p |
| C106 | `Refl.pair_extended` cqp, `Refl.desc_split` qp, `Settings.log_lists` cqp |
| C107 | `Uni8.to_wide` cqp, `Uni8.from_utf16` cqp, `Uni8.from_utf16z` cqp, `Uni8.from_utf32` cqp, `Uni8.from_utf32z` cqp |
| C108 | `Crypt.encodeBlock_textbook` qp, `Crypt.Pi.tables_are_pi` cqp |
| C109 | `Zip.open_get` cqp, `Zip.open_get_member` cqp, `Zip.open_refuses_member` cqp, `Zip.open_refuses_unknown` cqp |
| C11 | `Jenkins.hash3_tail_ignored` qp, `Jenkins.hash3_last_block_matters_partial` qp |
| C110 | `Uni.uint_exact` cqp, `Uni.int_exact` cqp, `Uni.signed_exact` cqp, `Uni.sample_each` qp, `Uni.sample_refuses` –, `Uni.codec_registry` qp |
| C111 | `ReflIO.save_load` cqp, `ReflIO.load_refuses` qp |
| C112 | `Wave.riff_size` qp, `Wave.calc_linear` qp, `Wave.valid_chunk_iff` cqp, `Wave.bits_of_format` qp |
| C113 | `FileInfo.path_split` cqp |
| C114 | `Base128.bint128_outcome` cqp |
| C115 | `BinFile.readers_are_cursors` qp, `BinFile.reopen_violated` p, `BinFile.move_violated` qp, `BinFile.unopened_violated` p |
| C116 | `UnitTest.bang_parses` qp, `UnitTest.check_partial` cqp, `UnitTest.check_equal_violated` p, `UnitTest.compare_checks` cqp, `UnitTest.cmp_precedence_violated` qp, `UnitTest.cases_count` cqp, `UnitTest.cases_zero` qp, `UnitTest.cases_cancel_violated` p |
| C117 | `Element.elements_sound` cqp, `Element.elements_defined` cqp, `Element.elements_use` cqp, `Element.to_element` qp |
| C118 | `BinFile.readers_are_cursors` qp |
| C119 | `UnitTest.compare_checks` cqp, `UnitTest.not_check` p, `UnitTest.cases_count` cqp, `UnitTest.cases_zero` qp |
| C12 | `StringView.find_behaviour_partial` qp, `StringView.find_char_partial` qp, `StringView.find_not_late_partial` qp, `StringView.find_end_violated` p, `StringView.find_first_char_violated` p, `StringView.rfind_violated` p, `StringView.rfind_char_partial` qp, `StringView.rfind_reversed` qp |
| C120 | `PrinterColour.colours_erase` qp, `PrinterColour.plain_sinks` qp, `PrinterColour.colours_shown` cqp, `PrinterColour.colours_own` qp, `PrinterColour.colour_fits` qp, `PrinterColour.colour_text_spec` cqp, `PrinterColour.restore_spec` cqp, `PrinterColour.colour_text_injective` cqp |
| C121 | `Max.suffix_text` cqp, `Max.suffix_order` cqp, `Max.suffix_again` qp |
| C122 | `Max.resize_spec` cqp |
| C123 | `Max.params_independent` qp, `Max.accessors_distinct` p, `Max.id_rule` cqp |
| C124 | `PrinterColour.flush_shows` cqp, `PrinterColour.colours_shown` cqp, `PrinterColour.info_colour_violated` p, `PrinterColour.colour_overflow_violated` qp |
| C125 | `Max.suffix_text` cqp, `Max.suffix_ambiguous_violated` qp, `Max.full_color_twice_violated` qp |
| C126 | `Max.delete_spec` cqp, `Max.delete_negative_violated` qp |
| C127 | `Block.bc5_blue_partial` cqp, `Block.bc5_blue_violated` cqp, `Block.bc5_blue_outside` cqp, `Block.bc5_blue_short_violated` qp |
| C128 | `Dds.bpp_dx10_partial` qp, `Dds.bpp_legacy_partial` cqp, `Dds.bpp_kept` qp, `Dds.isBC_iff` qp, `Dds.layout_blocks` cqp, `Dds.bpp_pairs_violated` qp, `Dds.bpp_palette_violated` qp, `Dds.bpp_uyvy_violated` qp, `Dds.typeless_violated` qp |
| C129 | `Block.simd_ends` cqp, `Block.simd_thirds_partial` cqp, `Block.simd_thirds_violated` cqp, `Block.simd_pixels_violated` cqp |
| C13 | `StringView.compare_spec` qp, `StringView.operators_total_order` qp, `StringView.operators_agree` cqp, `StringView.compare_parts` qp |
| C130 | `Vec.lanes_rounded` cqp, `Vec.dot_simd_accurate` cqp, `Vec.dot_accurate` cqp, `Vec.product_accurate` cqp, `Vec.identity_exact` cqp, `Vec.whole_numbers_exact` cqp, `Vec.lanes_rounded_small` cqp |
| C131 | `Vec.length_accurate` cqp, `Vec.normalize_accurate_partial` cqp, `Vec.normalize_unit_partial` cqp, `Vec.normalize_range_violated` cqp |
| C132 | `Vec.close_equal` cqp, `Vec.equal_nearly` cqp, `Vec.nan_unequal` cqp, `Vec.order_exact` cqp, `Vec.equal_symmetric_violated` qp |
| C133 | `Vec.ofQuat_accurate` cqp, `Vec.rotatePoint_accurate` cqp |
| C134 | `Uni.float32_exact` qp, `Uni.float16_exact` cqp, `Uni.float16_single_partial` cqp, `Uni.float16_single_violated` qp, `Uni.float11_exact_partial` cqp, `Uni.float10_exact_partial` cqp, `Uni.float10_violated` qp, `Uni.float11_subnormal_violated` qp |
| C135 | `SceneIter.loop_visits_lent` qp, `SceneIter.loop_visits_vector` qp, `SceneIter.loop_given_violated` qp, `SceneIter.loop_given_empty` p |
| C136 | `VectorText.text_is_components` cqp, `VectorText.text_injective` cqp, `VectorText.stream_is_components_partial` cqp, `VectorText.stream_bytes_violated` qp |
| C137 | `Rts.default_place` p, `Rts.place_mul` qp, `Rts.chain_partial` qp, `Rts.chain_default_violated` qp, `Rts.equal_iff_close` cqp, `Rts.nan_different` cqp, `Rts.tuple_order` – |
| C138 | `StringView.views_are_strings` qp, `StringView.views_stay_inside` cqp |
| C139 | `FloatTextProps.set_float_partial` cqp, `FloatTextProps.set_float_words` cqp, `FloatTextProps.set_float_sign_violated` cqp, `FloatTextProps.set_float_sign_witness_violated` cqp, `FloatTextProps.set_float_hex_partial` cqp |
| C14 | `StringView.find_first_of_correct` qp, `StringView.find_last_of_correct` cqp, `StringView.find_last_of_empty` p, `StringView.find_last_of_empty_violated` qp, `StringView.find_first_not_of_partial` qp, `StringView.find_last_not_of_partial` cqp, `StringView.find_not_of_violated` p, `StringView.find_first_not_of_empty_set` qp |
| C140 | `FloatTextProps.get_float_rounded` cqp, `FloatTextProps.set_get_short` cqp, `FloatTextProps.get_set_get_stable` cqp, `FloatTextProps.get_float_length` cqp, `FloatTextProps.float_survives_iff` cqp, `FloatTextProps.short_faithful` cqp, `FloatTextProps.float_text_lossy_violated` cqp, `FloatTextProps.float_subnormal_violated` cqp |
| C141 | `Vec.nan_lanes` cqp, `Vec.nan_spreads` cqp, `Vec.nan_product` cqp, `Vec.div_zero` cqp, `Vec.with_infinities` cqp, `Vec.order_line` cqp, `Vec.nan_spreads_small` cqp, `Vec.small_lanes` qp, `Vec.sqrt_special` qp |
| C142 | `TypeReg.registration_succeeds` qp, `TypeReg.last_registered` cqp, `TypeReg.registered_found_partial` cqp, `TypeReg.member_class_partial` cqp, `TypeReg.static_registration_partial` cqp, `TypeReg.plain_classes_violated` qp, `TypeReg.names_clash_violated` cqp, `TypeReg.static_registration_violated` qp |
| C143 | `PrinterWin.colour_shown` cqp, `PrinterWin.colour_visible` p, `PrinterWin.restore_violated` cqp |
| C144 | `UnitTestRun.comparisons_partial` cqp, `UnitTestRun.checks_partial` cqp, `UnitTestRun.function_result` cqp, `UnitTestRun.program_result_partial` cqp, `UnitTestRun.check_equality_violated` cqp, `UnitTestRun.loose_argument_violated` qp, `UnitTestRun.nan_checks_violated` cqp, `UnitTestRun.sum_violated` p |
| C145 | `FractionT.fraction_below` p, `FractionT.fraction_refused` p, `FractionT.fraction_agrees` qp, `FractionT.fraction_differs_violated` p |
| C146 | `ReflBin.load_frame` cqp, `ReflBin.load_in_object` cqp, `ReflBin.load_bound` qp, `ReflBin.load_layout_needed` qp, `ReflBin.registered_laid` cqp |
| C147 | `ReflXml.xml2_load_frame_partial` cqp, `ReflXml.xml2_index_violated` qp, `ReflXml.xml2_axis_violated` qp |
| C148 | `Zip.open_sound` cqp, `Zip.get_sound` cqp, `Zip.open_returns` cqp |
| C149 | `Zip.reads_independent_partial` cqp, `Zip.truncated_member_violated` qp, `Zip.large_member_violated` cqp |
| C15 | `StringView.substr_correct` qp, `StringView.substr_throws` qp, `StringView.copy_behaviour_partial` qp, `StringView.copy_overflow_violated` qp, `StringView.copy_default_violated` qp, `StringView.remove_correct` p, `StringView.remove_ub` qp |
| C150 | `ZipConc.concurrent_gets` cqp, `ZipConc.gets_progress` cqp, `ZipConc.gets_finish` cqp |
| C151 | `IntVec.int_lanes` qp, `IntVec.int_exact` cqp, `IntVec.int_wraps_partial` cqp, `IntVec.mul_u16_violated` cqp, `IntVec.i32_defined` p, `IntVec.int_div` cqp, `IntVec.int_bits` cqp, `IntVec.int_sign` cqp, `IntVec.int_shr` cqp, `IntVec.int_shl` cqp, `IntVec.int_shl_shr` cqp, `IntVec.int_neg_partial` cqp, `IntVec.neg_u16_violated` cqp, `IntVec.int_dot` cqp, `IntVec.int_length_partial` cqp, `IntVec.length8_violated` cqp, `IntVec.int_normalize` cqp, `IntVec.int_normalize_violated` cqp |
| C152 | `DirScanWin.attr_bits` qp, `DirScanWin.scanW_partial` cqp, `DirScanWin.scanW_ends` qp, `DirScanWin.first_missed_violated` cqp, `DirScanWin.fileTypeW_spec` qp, `DirScanWin.fileType_hosts_violated` qp |
| C153 | `Crypt.blowfish_modes` cqp |
| C154 | `Uni8.uprintf_plain` qp, `Uni8.uprintf_wide_partial` cqp, `Uni8.uprintf_violated` p, `Uni8.isHelp_iff` cqp |
| C155 | `ZipFile.files_are_cursors_partial` qp, `ZipFile.move_violated` qp, `ZipFile.move_shares_violated` qp, `ZipFile.not_elided_violated` p |
| C156 | `ReflIO.saved_inside` cqp, `ReflIO.inside_fits` cqp, `ReflIO.too_many_classes_violated` cqp, `ReflIO.too_many_names_violated` cqp, `ReflIO.names_outside_violated` cqp, `ReflIO.alias_hashes_misplaced_violated` p |
| C157 | `PyLife.kept_defined_partial` qp, `PyLife.lent_defined` qp, `PyLife.owned_deleted_once` qp, `PyLife.given_owned` p, `PyLife.lender_not_kept_violated` qp |
| C158 | `Vec.missing_component_partial` cqp, `Vec.missing_too_long` cqp, `Vec.missing_component_violated` cqp |
| C159 | `Vec.toQuat_accurate` cqp, `Vec.quat_matrix_quat` cqp |
| C16 | `FileInfo.path_split` cqp, `FileInfo.folder_name_ext_partial` cqp, `FileInfo.dot_in_folder_violated` qp, `FileInfo.reload_empty_violated` – |
| C160 | `Vec.decompose_accurate` cqp, `Vec.compose_accurate` cqp, `Vec.compose_decompose_accurate` cqp |
| C161 | `Vec.inverse_accurate` cqp, `Vec.inverse_last_column` cqp, `Vec.inverse_translation_accurate` cqp, `Vec.inverse_product_accurate` cqp, `Vec.inverse_product_border` cqp, `Vec.inverse_identity_partial` cqp, `Vec.inverse_small_row` cqp, `Vec.inverse_identity_violated` cqp |
| C162 | `VectorText.float_text_is_components` cqp, `VectorText.float_stream_is_components` cqp, `VectorText.float_text_specials` cqp, `VectorText.float_text_apart` cqp, `VectorText.float_text_lossy_violated` qp |
| C163 | `XmlError.messages_say` qp, `XmlError.offset_right_iff` cqp, `XmlError.message_identifies` cqp, `XmlError.offset_violated` cqp |
| C164 | `PyInit.types_registered` cqp, `PyInit.entries` p, `PyInit.refs_exact` cqp, `PyInit.refs_leaked_violated` p, `PyInit.failure_silent` qp, `PyInit.names_reachable_violated` qp |
| C17 | `FileInfo.explode_join` cqp, `FileInfo.explode_empty_ub` p |
| C18 | `Stream.script_roundtrip` cqp, `Stream.script_frame` cqp, `Stream.scalar_image` qp |
| C19 | `Stream.script_roundtrip` cqp, `Stream.counted_prefix` cqp, `Stream.lambda_roundtrip` cqp, `Stream.readString_terminates` qp, `Stream.readString_failed_violated` qp |
| C20 | `Stream.push_pop_partial` qp, `Stream.pop_after_eof_violated` qp, `Stream.nested_push_violated` qp, `Stream.tell_seek` qp, `Stream.origin_laws` qp, `Stream.seek_tell` qp, `Stream.getSize_spec` qp |
| C21 | `Stream.padding_lands` cqp, `Stream.script_roundtrip` cqp, `Supercore.getPadding_spec` cqp |
| C22 | `Supercore.isPow2_iff` qp, `Supercore.skipStart_spec` qp, `Supercore.skipEnd_spec` qp, `Supercore.trim_spec` qp, `Supercore.trim_overread_violated` qp |
| C23 | `Refl.set_signed_partial` cqp, `Refl.set_unsigned_correct` cqp, `Refl.set_signed_violated` cqp, `Refl.int_roundtrip` cqp, `Refl.bool_roundtrip` cqp, `Refl.bool_invalid_violated` qp |
| C24 | `Refl.frame_partial` qp, `Refl.frame_lists_partial` qp, `Refl.element_frame_partial` qp, `Refl.typed_frame` qp, `Refl.array_overrun_violated` qp, `Refl.element_overrun_violated` qp, `Refl.component_check_violated` qp |
| C25 | `Refl.enum_roundtrip_partial` cqp, `Refl.enum_set_padded` cqp, `Refl.enum_negative_violated` cqp |
| C26 | `Refl.flags_roundtrip` cqp, `Refl.flag_bit_violated` qp |
| C27 | `Refl.list_assign_partial` cqp, `Refl.int_list_assign` cqp, `Refl.int_list_roundtrip` cqp, `Refl.quoted_items_violated` qp, `Refl.short_list_violated` qp, `Refl.array_overrun_violated` qp |
| C28 | `ReflBin.bin_roundtrip_partial` cqp, `ReflBin.bin_int64_violated` qp, `ReflBin.bin_nested_diverges` qp, `ReflBin.bin_array_of_arrays_violated` qp |
| C29 | `ReflBin.load_class_mismatch` cqp, `ReflBin.load_count_mismatch` cqp, `ReflBin.load_items` cqp, `ReflBin.load_other_version` cqp, `ReflBin.load_error_lost_violated` qp |
| C30 | `Threads.queue_safe` cqp, `Threads.queue_complete` cqp, `Threads.queue_terminates_partial` cqp, `Threads.queue_zero_hw_violated` qp |
| C31 | `Alloc.linked_partial` cqp, `Alloc.owned_sound` cqp, `Alloc.deleter_foreign` qp, `Alloc.deleter_owned` cqp, `Alloc.grow_shares_violated` qp, `Alloc.grow_frees_foreign_violated` qp |
| C32 | `Pointer.fixup64_resolves` qp, `Pointer.fixup64_forced` qp, `Pointer.fixup32_forced` cqp, `Pointer.fixup64_again` qp, `Pointer.fixup32_again` qp, `Pointer.fixAll64_history` qp, `Pointer.fixAll32_history` qp, `Pointer.assign32_resolves` cqp, `Pointer.fixup32_resolves` cqp, `Pointer.fixup32_null` p, `Pointer.fixup32_far_violated` p, `Pointer.two_threads_violated` –, `Pointer.stale_list_violated` p |
| C33 | `Zip.open_get` cqp, `Zip.open_get_member` cqp, `Zip.open_refuses_member` cqp, `Zip.open_refuses_unknown` cqp, `Zip.empty_member_violated` cqp, `Zip.streamed_member_violated` qp, `Zip.open_never_returns_violated` qp, `Zip.large_member_violated` cqp |
| C34 | `Morton.addr_bits` cqp, `Morton.morton_injective` cqp, `Morton.morton_bijective_partial` cqp, `Morton.tall_violated` cqp, `Morton.small_rectangle_violated` cqp |
| C35 | `Block.bc4_decodes` cqp, `Block.bc5_decodes` cqp, `Block.bc5GA_decodes` cqp, `Block.bc3_decodes` cqp, `Block.bc2_decodes` cqp, `Block.bc1_decodes` cqp, `Block.texel_inside` qp |
| C36 | `Dds.mips_tile` qp, `Dds.bytesBefore_next` p, `Dds.block_level_partial` qp, `Dds.block_square_pow2` cqp, `Dds.block_level_violated` qp, `Dds.block_flat_violated` –, `Dds.empty_level_violated` qp, `Dds.large_level_violated` qp, `Dds.many_mips_violated` qp, `Dds.typeless_violated` qp, `Dds.numMipmaps_spec` cqp, `Dds.computeBPP_dx10` qp |
| C37 | `Dds.legacy_roundtrip` qp, `Dds.forced_roundtrip` qp, `Dds.forced_representable` qp, `Dds.legacy_bpp` qp, `Dds.fourcc_roundtrip_partial` qp, `Dds.stale_alpha_violated` qp |
| C38 | `Uni.uint_exact` cqp, `Uni.int_exact` cqp, `Uni.noFrac_exact` cqp, `Uni.signed_exact` cqp, `Uni.sample_each` qp, `Uni.sample_refuses` –, `Uni.sample_uint_partial` cqp, `Uni.sample_int_partial` cqp, `Uni.codec_registry` qp, `Uni.uint_reads_past_violated` qp, `Uni.norm_reads_past_violated` qp, `Uni.sample_past_end_violated` cqp, `Uni.noFrac_leaks` cqp |
| C39 | `EsFloat.toVector4_exact` cqp, `EsFloat.half_toVector4_exact` cqp, `EsFloat.toFloat_exact` cqp, `EsFloat.half_toFloat_exact_partial` cqp, `EsFloat.half_toFloat_violated` qp, `EsFloat.half_negative_zero_violated` qp, `EsFloat.toVector4_subnormal_violated` cqp, `EsFloat.toVector4_nan_violated` cqp |
| C40 | `Vec.toMatrix_ops` cqp, `Vec.matrix_laws` cqp, `Vec.transpose_part` cqp, `Vec.transpose_involutive_partial` p, `Vec.transpose_violated` p, `Vec.rotatePoint_conj` qp, `Vec.rotatePoint_violated` cqp, `Vec.ofQuat_mul` cqp, `Vec.ofQuat_orthogonal` cqp, `Vec.toQuat_ofQuat` cqp, `Vec.fromQuat_toQuat` cqp, `Vec.compose_decompose` cqp, `Vec.decompose_compose` cqp, `Vec.decompose_spec` cqp, `Vec.decompose_mirror` cqp, `Vec.epsF_nearest` cqp, `Vec.inverse_product` cqp, `Vec.inverse_iff` cqp, `Vec.inverse_partial` cqp, `Vec.inverse_translation_violated` cqp, `Vec.inverse_small_violated` cqp |
| C41 | `DirScan.scan_partial` cqp, `DirScan.path_inj` p, `DirScan.quoted_dir_violated` p, `DirScan.backslash_dir_violated` p, `DirScan.scan_ends` qp |
| C42 | `Printer.printer_delivers` cqp, `Printer.printer_message` cqp, `Printer.printer_memory` cqp, `Printer.flushAll_stale_violated` qp, `Printer.nul_text_violated` qp |
| C43 | `VirtualIter.forEach_all` qp, `VirtualIter.forEach_vector` qp, `VirtualIter.explicit_position_violated` –, `VirtualIter.explicit_position` qp |
| C44 | `Refl.lookup_correct` qp |
| C45 | `Refl.enum_registration_partial` cqp, `Refl.enum_init_violated` cqp |
| C46 | `Refl.bitmember_partial` cqp, `Refl.bitmember_print` cqp, `Refl.bitmember_signed_violated` cqp, `Refl.bitmember_range_violated` qp, `Refl.bitmember_invalid_violated` qp |
| C47 | `ReflIO.save_load_partial` cqp, `ReflIO.save_load` cqp, `ReflIO.alias_hashes_lost_violated` cqp, `ReflIO.save_behind_data_violated` qp, `ReflIO.load_refuses` qp, `ReflIO.loadMore_empty` qp, `ReflIO.load_again_violated` qp |
| C48 | `Wave.next_position` cqp, `Wave.next_violated` cqp, `Wave.walk_corrected` cqp, `Wave.riff_size` qp, `Wave.calc_linear` qp, `Wave.calc_adpcm_violated` p, `Wave.valid_chunk_iff` cqp |
| C49 | `Vec.lanes2` –, `Vec.lanes3` –, `Vec.lanes4_partial` –, `Vec.normalize2_spec` cqp, `Vec.normalize3_spec` cqp, `Vec.normalize4_spec` cqp, `Vec.orAssign_violated` qp, `Vec.mk4_lanes` –, `Vec.get_bounds` p, `Vec.shift_lanes` cqp, `Vec.not_lanes` cqp, `Vec.toFlt_signed` –, `Vec.toFlt_unsigned_violated` qp, `Vec.intEq_iff` p, `Vec.isSymetrical_iff` qp, `Vec.swapEndian_lanes` qp, `Vec.dot_sum` qp, `Vec.dot_comm` p, `Vec.dpPs_comm_any` p, `Vec.dot_bilinear` p, `Vec.cross_laws` qp, `Vec.simd_cross` p, `Vec.simd_cross_laws` qp, `Vec.neg_add` p, `Vec.qConjugate_spec` p, `Vec.fltEq_iff` cqp, `Vec.simdLt_iff` qp, `Vec.simdLe_partial` cqp, `Vec.simdLe_violated` cqp, `Vec.simdIsSymetrical_iff` cqp, `Vec.simdIsSymetrical_violated` cqp, `Vec.simdSign_iff` cqp, `Vec.simdNormalized_spec` cqp, `Vec.qComputeElement_partial` cqp, `Vec.qComputeElement_violated` cqp |
| C50 | `Crypt.keyEntry_packs_partial` cqp, `Crypt.blowfish_key_bytes_ignored` cqp, `Crypt.blowfish_empty_key` qp |
| C51 | `Jenkins.jenHashCannon_one_char` qp, `Jenkins.jenHash_one_char_violated` qp |
| C52 | `Supercore.fourCC_bytes_partial` cqp, `Supercore.fourCC_violated` cqp |
| C53 | `Supercore.atoh_partial` p, `Supercore.atoh_violated` qp |
| C54 | `Dds.masks_partial` qp, `Dds.masks_violated` qp |
| C55 | `EsFloat.half_round_trip_partial` cqp, `EsFloat.half_fromFloat_round_trip_partial` cqp, `EsFloat.half_encode_below_half_violated` cqp, `EsFloat.half_encode_violated` qp, `EsFloat.half_fromFloat_violated` qp |
| C56 | `Uni.unorm_value` cqp, `Uni.unorm_normalised` cqp, `Uni.norm_value` cqp, `Uni.norm_normalised` cqp, `Uni.normMag_mono` cqp, `Uni.normMag_ends` p, `Uni.normMag_range` cqp, `Uni.norm_min_violated` qp, `Uni.unorm_red_violated` cqp, `Uni.unorm_blue_violated` qp |
| C57 | `Crypt.encodeBlock_textbook` qp, `Crypt.setKey_textbook_partial` cqp, `Crypt.Pi.tables_are_pi` cqp, `Crypt.Pi.blowfish_published_partial` cqp |
| C58 | `Jenkins.hash3_lookup3_partial` cqp, `Jenkins.hash3_lookup3_violated` qp, `Jenkins.hash3_tail_ignored` qp |
| C59 | `Refl.sub_get` cqp, `Refl.sub_set_get` cqp, `Refl.elem_get` cqp, `Refl.flag_get_partial` cqp, `Refl.flag_elem_get_partial` cqp, `Refl.flag31_violated` cqp, `Refl.flag_bit_violated` qp, `Refl.subclass_elem` qp, `Refl.subclass_member` qp, `Refl.subclass_none` p, `Refl.flag31_any_violated` cqp |
| C60 | `Refl.bool_set_text` cqp, `Refl.bool_roundtrip` cqp |
| C61 | `ReflXml.xml_roundtrip_partial` cqp, `ReflXml.hash_names` cqp, `ReflXml.xml_leading_blank_violated` cqp, `ReflXml.xml_markup_violated` cqp, `ReflXml.xml_signed_bits_violated` cqp, `FloatTextProps.xml_float_roundtrip` cqp, `FloatTextProps.xml_float_tree_roundtrip` cqp, `FloatTextProps.xml_float_lossy_violated` cqp |
| C62 | `ReflXml.xml_load_frame` cqp, `ReflXml.xml_load_frame_lists_partial` cqp, `ReflXml.xml_load_ignores` qp, `ReflXml.xml_load_defined_partial` qp, `ReflXml.xml_load_item_violated` cqp |
| C63 | `ReflXml.xml2_roundtrip_partial` cqp, `ReflXml.xml2_unknown_child_violated` qp, `ReflXml.xml2_index_violated` qp, `ReflXml.xml2_axis_violated` qp, `ReflXml.xml2_byte_vectors_violated` cqp, `ReflXml.xml2_nameless_list_violated` cqp, `FloatTextProps.xml2_float_roundtrip` cqp |
| C64 | `Refl.macro_loop_partial` cqp, `Refl.macro_loop_violated` qp |
| C65 | `Refl.table_describes_partial` cqp, `Refl.members_independent_partial` cqp, `Refl.registered_ids` qp, `Refl.getByHash_eq` cqp, `Refl.table_limits_violated` qp, `Refl.nested_array_violated` cqp |
| C66 | `Refl.typed_roundtrip_partial` cqp, `Refl.typed_frame` qp, `Refl.typed_first_violated` p, `Refl.typed_overflow_violated` cqp |
| C67 | `Refl.pair_extended` cqp, `Refl.desc_split` qp, `Refl.pair_varnames` cqp, `Refl.pair_null_violated` cqp |
| C68 | `Refl.bitfield_by_name_partial` cqp, `Refl.bitfield_order_violated` cqp |
| C69 | `Mkdirs.mkdirs_one` cqp, `Mkdirs.mkdirs_plain` cqp, `Mkdirs.mkdirs_batch` cqp, `Mkdirs.mkdirs_batch_here` cqp, `Mkdirs.mkdirs_one_only` qp, `Mkdirs.mkdirs_batch_only` qp, `Mkdirs.mkdirs_base_without_slash_violated` –, `Mkdirs.mkdirs_missing_base_violated` p |
| C70 | `Mkdirs.fileType_partial` qp, `Mkdirs.fileType_error` qp, `Mkdirs.fileType_socket_violated` qp |
| C71 | `Except.header_alnum` qp, `Except.header_hex` qp, `Except.header_inj_partial` cqp, `Except.header_zero_violated` qp, `Except.header_wide_violated` cqp |
| C72 | `ZipRec.zip_write` qp, `ZipRec.zip_read` cqp, `ZipRec.zip_round_trip` cqp, `ZipRec.zip_short` qp |
| C73 | `Uni8.to_wide` cqp, `Uni8.from_utf16` cqp, `Uni8.from_utf16z` cqp, `Uni8.from_utf32` cqp, `Uni8.from_utf32z` cqp, `Uni8.wide_roundtrip_partial` cqp, `Uni8.wide_roundtrip_violated` cqp, `Uni8.empty_violated` p, `Uni8.malformed_refused` cqp |
| C74 | `Py.py_for_partial` qp, `Py.py_refcount_violated` qp, `Py.py_nested_violated` qp, `Py.py_subscript` p, `Py.py_subscript_violated` p, `Py.py_enum` cqp, `Py.py_enum_unknown_violated` qp |
| C75 | `Settings.help_lists_partial` qp, `Settings.help_null_violated` p, `Settings.help_omits_violated` qp, `Settings.help_unregistered_violated` qp, `Settings.log_lists` cqp, `Settings.log_null_violated` cqp |
| C76 | `Block.bc1_colours` cqp, `Block.bc2_colours` cqp, `Block.bc3_colours` cqp, `Block.bc1A_colours_partial` cqp, `Block.entry4_defined` cqp, `Block.midpoint_violated` qp, `Block.third_cut_violated` qp, `Block.ends` qp, `Block.mix4_ok` cqp |
| C77 | `Uni.normMag_close` cqp, `Uni.unorm_close` cqp, `Uni.norm_close` cqp, `Uni.resample_length` qp, `Uni.resample_get` qp, `Uni.resample_close` cqp, `Uni.unpack_unorm` cqp |
| C78 | `Py.get_values` qp, `Py.get_values_refuses` –, `Py.get_values_item_violated` –, `Py.frame_rate_partial` qp, `Py.frame_rate_violated` – |
| C79 | `Py.parents_not_deleted` p, `Py.ancestors_chain` qp, `Py.compare_equal` –, `Py.compare_equivalence` p, `Py.compare_order_violated` –, `Py.none_lost_violated` qp, `Py.wrapper_leak_violated` qp |
| C80 | `Py.void_calls_caught` p, `Py.void_calls_sliced_violated` p, `Py.modify_error_uncaught_violated` p |
| C81 | `Hk.correction_reads_partial` qp, `Hk.correction_identifies_partial` qp, `Hk.correction_ambiguous_violated` p |
| C82 | `Pugiex.parse_options` qp, `Pugiex.format_options` qp, `Pugiex.defaults` qp, `Pugiex.parse_option_on` qp, `Pugiex.from_file` p, `Pugiex.collect_children` qp |
| C83 | `Pugiex.py_enum_access` cqp, `Pugiex.py_enum_violated` qp |
| C84 | `Block.bc1A_decodes_partial` qp, `Block.bc1A_alpha_violated` qp, `Block.bc1A_colours_partial` cqp |
| C85 | `StringView.find_first_of_correct` qp, `StringView.find_last_of_correct` cqp, `StringView.find_last_of_empty` p |
| C86 | `StringView.substr_correct` qp, `StringView.substr_throws` qp, `StringView.remove_correct` p |
| C87 | `Stream.tell_seek` qp, `Stream.seek_tell` qp, `Stream.origin_laws` qp, `Stream.getSize_spec` qp |
| C88 | `Refl.set_unsigned_correct` cqp, `Refl.int_roundtrip` cqp |
| C89 | `Threads.queue_safe` cqp, `Threads.queue_complete` cqp |
| C90 | `Alloc.owned_sound` cqp, `Alloc.deleter_foreign` qp, `Alloc.deleter_owned` cqp |
| C91 | `Pointer.fixup64_resolves` qp, `Pointer.fixup64_forced` qp, `Pointer.fixup32_forced` cqp, `Pointer.fixup64_again` qp, `Pointer.fixup32_again` qp, `Pointer.fixAll64_history` qp, `Pointer.fixAll32_history` qp, `Pointer.assign32_resolves` cqp, `Pointer.fixup32_resolves` cqp, `Pointer.fixup32_null` p |
| C92 | `Block.bc1_colours` cqp, `Block.bc2_colours` cqp, `Block.bc3_colours` cqp, `Block.entry4_defined` cqp, `Block.mix4_ok` cqp, `Block.ends` qp |
| C93 | `Dds.mips_tile` qp, `Dds.bytesBefore_next` p, `Dds.numMipmaps_spec` cqp, `Dds.computeBPP_dx10` qp |
| C94 | `Vec.toMatrix_ops` cqp, `Vec.matrix_laws` cqp, `Vec.ofQuat_mul` cqp, `Vec.ofQuat_orthogonal` cqp, `Vec.toQuat_ofQuat` cqp, `Vec.fromQuat_toQuat` cqp, `Vec.compose_decompose` cqp, `Vec.decompose_compose` cqp, `Vec.decompose_spec` cqp |
| C95 | `Vec.lanes2` –, `Vec.lanes3` –, `Vec.dot_sum` qp, `Vec.dot_comm` p, `Vec.dot_bilinear` p, `Vec.cross_laws` qp, `Vec.simd_cross` p, `Vec.simd_cross_laws` qp, `Vec.swapEndian_lanes` qp, `Vec.mk4_lanes` –, `Vec.get_bounds` p, `Vec.shift_lanes` cqp, `Vec.not_lanes` cqp |
| C96 | `ReflXml.xml_load_frame` cqp, `ReflXml.xml_load_ignores` qp |
| C97 | `ReflBin.load_class_mismatch` cqp, `ReflBin.load_count_mismatch` cqp, `ReflBin.load_items` cqp, `ReflBin.load_other_version` cqp |
| C98 | `Morton.addr_bits` cqp, `Morton.morton_injective` cqp |
| C99 | `EsFloat.toVector4_exact` cqp, `EsFloat.half_toVector4_exact` cqp |

