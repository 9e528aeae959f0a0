| C01 | byte writer/reader loops over `BitVec 64` | induction on the loop index, list append |
| C02 | same; three value ranges | partial + two negation witnesses |
| C03 | `_fbswap` masks/shifts vs reversed byte list | bit-extensional proof |
| C04 | member layout = prefix sums; Get/Set masks on `BitVec w` | bit-extensional, arithmetic on prefix sums |
| C05 | `SwapBitField` loop as fold | bit-extensional invariant of the fold |
| C06 | Flags word; history of operations | induction over the history, abstraction to `Nat → Bool` |
| C07 | XOR over list with index | pointwise |
| C08 | Feistel rounds with arbitrary F and p-box list | induction on the round list |
| C09 | five modes over lists of blocks | induction on blocks, generalising the chain value |
| C10 | fold over characters on `BitVec 64` | fold algebra; order laws |
| C11 | block loop of lookup3 variant | negation: last 12 bytes ignored for lengths 24,36,...; partial for the rest |
| C12 | index loops of find/rfind | negation witnesses; partial characterisation of what the loop does return |
| C13 | compare loop | induction over the two lists |
| C14 | set-search loops | full for find_first_of; find_last_of; negation for *_not_of |
| C15 | substr/copy/remove_* | list drop/take; negation for copy count and substr(size) |
| C16 | Load with last '/' and last '.' | list lemmas; negation for dotted folder and for empty reload |
| C17 | Explode loop | induction with accumulator |
| C18-C21 | stream state (bytes, pos, origin, stack, swap) | round trip by induction on the value list; invariants over histories |
| C22 | `n & (n-1)`; trim loops | bit argument; list lemmas |
| C23, C46 | text parse + clamp | case analysis on ranges, parametric in width |
| C24 | object memory as byte list, field extents | frame lemma for every setter |
| C25-C27 | text printers and setters over a field memory | round trip lemmas |
| C28-C29 | recursive value/schema model of the binary format | mutual structural induction |
| C30 | transition system (task states, slots, poll index) | invariant over all schedules; termination measure; negation for zero hardware threads |
| C31 | allocator state and history | invariant; negation for growth aliasing |
| C32 | address map, used list | invariant over histories |
| C33 | byte-level archive parser | round trip against an abstract archive builder |
| C34 | masks/shifts address computation | bit-extensional bijection |
| C35 | decoders writing to an image function | frame + value theorem |
| C36 | mip loop | induction on mip index |
| C37 | finite mapping tables | case analysis over the whole table |
| C38 | bit slices and stride loop | list/bit lemmas |
| C39 | integer-level decode to rational value | finite 2^16 by structural argument; negation |
| C40 | matrices over a commutative ring / field | `ring`; floats in C130 to C133 |
| C41 | recursive tree | structural induction |
| C42 | printer buffer state machine | induction over history; negation when residual text remains |
| C43 | iterator loop | induction |
| C44 | table lookup | list lemmas |
| C45 | fold over enumerator declarations | induction |
| C47 | database image with fixups | negation: alias hashes lost; partial |
| C48 | Next() offset arithmetic | negation with witness; partial |
| C49 | lanes over commutative ring | `ring`; bit-level SwapEndian |
| C50 | key schedule's packing of signed characters | partial + negation for characters above 0x7f |
| C51 | two texts of equal length differing in one character | algebra of the textbook hash; negation witness for the library's finalisation |
| C52 | shifts of sign extended characters | bit-extensional; negation |
| C53 | table lookup with the table's 256 entries | case analysis; negation outside |
| C54 | DDS mask table per format | case analysis over the whole table; negation |
| C55 | float encoders on exact values | exponent/mantissa arithmetic; negation witnesses |
| C56 | normalised channel = round(raw * 1/max) in exact IEEE arithmetic (`Float32`) | rounding error bound; negation |
| C57 | Feistel network and key schedule against a separate specification (`Spec/Blowfish`) | refinement, induction on rounds; the tables against `Real.pi` by Machin's formula with exact partial sums evaluated by the kernel |
| C58 | lookup3 against Bob Jenkins' published hashword (`Spec/Lookup3`) | refinement by 12 byte blocks; negation |
| C59 | sub-value accessors of lists, components, flags | read lemmas over the byte memory |
| C60 | hash and name lookup | list lemmas |
| C61 | XML V1 save/load over a tree type | structural induction over class nesting |
| C62 | XML V1 load on arbitrary documents | frame invariant over documents; negation |
| C63 | XML V2 save/load | structural induction; negations |
| C64 | macro count table and loop | finite table + list induction |
| C65 | registration of member tables from C types | arithmetic of truncations; independence of members |
| C66 | typed get/set overloads | read/write lemmas; negation |
| C67 | name/alias/description tables | list lemmas; negation |
| C68 | bit field classes reached by name | layout lemmas; negation |
| C69 | mkdirs on a POSIX folder model | invariant over the sorted set of folders; negation |
| C70 | mode bits of `stat` | case analysis over the file types; negation |
| C71 | message builder on the bytes of the number | list/hex lemmas; injectivity; negation |
| C72 | in-memory layout with alignment, block reads and writes | generic layout lemma instantiated for six records |
| C73 | codecs as functions on code points | induction over the text; negation |
| C74 | object with reference count and position; interpreter loop | induction over the items and loops; negation |
| C75 | text built by the loops | structural induction over the help tree; negation |
| C76 | float palette of the colour blocks | error bounds over ℚ for every rounded operation, end colours by evaluation of all field values |
| C77 | exact float sampling, `Resample` over lists of lanes | signed error bounds over ℚ for every rounded operation, composed |
| C78 | conversion and dispatch loops of `get_values` | induction over the times; negation |
| C79 | bone table, reference and block counters | induction over the history and the chain; negation |
| C80 | exception classes with base lists, slicing | case analysis of all accessors; negation |
| C81 | text loops over a float matrix | reader as left inverse; negation |
| C82 | option folds, status map, child loop | induction over the option list and children; finite status table |
| C83 | index and name lookup | list lemmas; negation |
| C84 | decoders writing to an image function (C35); float palette of the colour blocks (C76) | frame + value theorem (C35); error bounds over ℚ for every rounded operation, end colours by evaluation of all field values (C76); negation |
| C85 | set-search loops (C14) | full for find_first_of; find_last_of; negation for *_not_of (C14) |
| C86 | substr/copy/remove_* (C15) | list drop/take; negation for copy count and substr(size) (C15) |
| C87 | stream state (bytes, pos, origin, stack, swap) (C20) | round trip by induction on the value list; invariants over histories (C20) |
| C88 | text parse + clamp (C23) | case analysis on ranges, parametric in width (C23) |
| C89 | transition system (task states, slots, poll index) (C30) | invariant over all schedules; termination measure; negation for zero hardware threads (C30) |
| C90 | allocator state and history (C31) | invariant; negation for growth aliasing (C31) |
| C91 | address map, used list (C32) | invariant over histories (C32) |
| C92 | float palette of the colour blocks (C76) | error bounds over ℚ for every rounded operation, end colours by evaluation of all field values (C76) |
| C93 | mip loop (C36) | induction on mip index (C36) |
| C94 | matrices over a commutative ring / field (C40) | `ring`; floats in C130 to C133 |
| C95 | lanes over commutative ring (C49) | `ring`; bit-level SwapEndian (C49) |
| C96 | XML V1 load on arbitrary documents (C62) | frame invariant over documents; negation (C62) |
| C97 | recursive value/schema model of the binary format (C29) | mutual structural induction (C29) |
| C98 | masks/shifts address computation (C34) | bit-extensional bijection (C34) |
| C99 | integer-level decode to rational value (C39) | finite 2^16 by structural argument; negation (C39) |
| C100 | mkdirs on a POSIX folder model (C69) | invariant over the sorted set of folders; negation (C69) |
| C101 | printer buffer state machine (C42) | induction over history; negation when residual text remains (C42) |
| C102 | bone table, reference and block counters (C79) | induction over the history and the chain; negation (C79) |
| C103 | conversion and dispatch loops of `get_values` (C78) | induction over the times; negation (C78) |
| C104 | text printers and setters over a field memory (C26) | round trip lemmas (C26) |
| C105 | text printers and setters over a field memory (C27); sub-value accessors of lists, components, flags (C59) | round trip lemmas (C27); read lemmas over the byte memory (C59) |
| C106 | name/alias/description tables (C67); text built by the loops (C75) | list lemmas; negation (C67); structural induction over the help tree; negation (C75) |
| C107 | codecs as functions on code points (C73) | induction over the text; negation (C73) |
| C108 | Feistel network and key schedule against a separate specification (`Spec/Blowfish`) (C57) | refinement, induction on rounds; the tables against `Real.pi` by Machin's formula with exact partial sums evaluated by the kernel (C57) |
| C109 | byte-level archive parser (C33) | round trip against an abstract archive builder (C33) |
| C110 | bit slices and stride loop (C38) | list/bit lemmas (C38) |
| C111 | database image with fixups (C47) | negation: alias hashes lost; partial (C47) |
| C112 | Next() offset arithmetic (C48) | negation with witness; partial (C48) |
| C113 | Load with last '/' and last '.' (C16) | list lemmas; negation for dotted folder and for empty reload (C16) |
| C114 | same; three value ranges (C02) | partial + two negation witnesses (C02) |
| C115 | reader/writer objects at addresses with the file stream, members and the pointer to the stream used; open, move, destroy, any access | refinement to private cursors; negations for reopening, moving, use before Open |
| C116 | expressions with C++ precedence, the parse of pasted tokens; sums of case results | parse lemma, case analysis; negations with witnesses |
| C117 | handles with pointer and deleter flag, objects alive and deleted | inductive invariant over all programs |
| C118 | same as C115 | refinement |
| C119 | same as C116 | case analysis, induction on the list of cases |
| C120 | printer with colour flags and escape calls per sink; terminals that show coloured text | refinement of the printer model, invariants over all histories |
| C121 | channels, flags, sort, text | permutation and uniqueness of sorting |
| C122 | layers, both loops of Resize | induction on the loops |
| C123 | enumerator values, parameter block | finite table of distinct ids, induction on the calls |
| C124 | as C120 | complete specification of histories; negations with witnesses |
| C125 | as C121 | negations with witnesses |
| C126 | DeleteLayer with its guards | case analysis; negation |
| C127 | ComputeBC5Blue with every float operation rounded, sqrtf correctly rounded, three conversions to char (signed by the rules, x86, unsigned) | error bounds over the rationals and reals, the gap of the dot product around 1, induction over pixels; negations for all inputs |
| C128 | `_bpps`, ComputeBPP, IsBC, the switch of ComputeBufferSize; Spec/Dxgi lists the documented layouts | finite tables for the 120 formats and 22 codes, everything else by the structure of the code; negations with witnesses |
| C129 | `_SDecodeBC1Block`: SSE lanes as four 32 bit words, byte shuffles as lists | the index shuffles for all 256 index bytes, stores joined into the texel stores of C35, lanes as signed integers and linear arithmetic over the fields; the negations hold for every block with the stated fields |
| C130 | the polymorphic functions of `Model/Vectors.lean` and `Model/Matrix.lean` at the type `Fl` of floats (`Model/FloatVec.lean`) | round to nearest of every operation (`Lemmas/Float32Nearest.lean`, `Lemmas/Float32Ops.lean`), accumulated error bounds by linear arithmetic |
| C131 | Length and Normalize at the type `Fl` with the correctly rounded square root | error of the sum, of the root and of the quotient over the reals; concrete negation |
| C132 | fltcmp, Compare, `<`, `>` at the type `Fl` | monotonicity of rounding for acceptance, error of the bound for rejection; concrete negation |
| C133 | FromQuat and RotatePoint at the type `Fl` | error of one element for all shuffles, C130 |
| C134 | FLOAT and UFLOAT codecs of every format, over the layouts of C39 | channels as slices of the element (C38), layouts by C39, shift of the ten bit channel by arithmetic; concrete negations |
| C135 | lists by address, implementations of `Tracks()` that lend or give, the temporary `Element`, iterators and rounds of the loop | induction on the items left; evaluation for given lists |
| C136 | texts of integer vectors of 2 to 4 components, by `to_string` and by a stream | the separator does not occur in a decimal number, so cutting at blanks inverts joining (core `splitOn` lemma) |
| C137 | RTSValue with Compose (exact) and comparison (floats), the Python tuple | ring identities after unfolding; C132 for the comparison |
| C138 | views as pointer and size over a memory, programs over variables | simulation of string variables, step by step; invariant for addresses |
| C139 | strtod and its rounding for any binary format, SetNumber for floats | text grammar to fraction; rounding to nearest proved against all floats; thresholds as rational numbers |
| C140 | %g printing for any binary format on top of C139 | digits as nearest multiples in the decade; relative error of reading below half a digit; cases at powers of ten and at the smallest normal number |
| C141 | the float operations of C130 on all bit patterns | bit level facts on quieting and negation, cases on the class of the operands; the order compared with EReal |
| C142 | RegisterReflectedTypes, both registries as partial functions, hashes of REFLECTOR_CREATE, static initialisation as an event sequence | induction over the registrations; last one under a hash; permutations; end to end through the member tables of C65 |
| C143 | the Windows console word, SetConsoleTextColor, RestoreConsoleTextColor, the constructor | invariant on the saved word over all histories; bitwise or of components by halves |
| C144 | expression texts with C++ precedence, the macros as text, functions and programs of checks | reduction by precedence levels shown equal to the tree value by induction; lists |
| C145 | GetFraction_t with its recursion, GetFraction in binary32 | evaluation of the whole (finite) domain of widths by the kernel, rational inequalities |
| C146 | the model of C28/C29 on arbitrary bytes | induction on the nesting, the element and member loops; the covered set of C28, and a layout condition as the compiler guarantees it |
| C147 | the model of C63 on arbitrary documents | the per-text frame theorems of C24 at wrapped addresses, induction on the nesting and the reachable (class, node) pairs |
| C148 | `ZIPVFS` on arbitrary bytes | loop invariant: index sound with respect to headers found in the bytes; progress measure for termination |
| C149 | `Get` as state transformer of the shared reader | induction on the sequence; universal counterexamples |
| C150 | `Get` as four steps per call, threads and mutex | invariant over all schedules; progress; work measure for termination under fair rounds |
| C151 | integer element types with promotion, overflow and conversion back; operators of the three vector classes | case analysis on the type, linear and nonlinear arithmetic, modular uniqueness |
| C152 | `FindFirstFile`/`FindNextFile` loop; attribute tests | refinement: the Windows scan equals the POSIX scan of the tree without first finds and devices |
| C153 | five modes over lists of blocks | induction on blocks: the vector at block i, then the published rule per mode |
| C154 | `UPrintf` in both builds on the conversions of C73, `wprintf` without arguments; `IsHelp` | induction on the format; negation with witness |
| C155 | `ZIPVFSFile` as an object with an address, its implicit move, both ways `Get` may return it | simulation between objects and cursors; negation for every content |
| C156 | `ReflectorIO::Load` with every access of the buffer checked, numbers of items read again in every turn, 32 bit products | simulation with the unchecked model of C47, whose layout lemmas bound every table; inversion of the checked run for damaged files |
| C157 | the elements behind Python wrappers: create, lend, give, use, drop (`Dealloc`), parts of objects | invariant relating the world to the program's variables and their lenders; deletion by an invariant over all programs |
| C158 | `QComputeElement` with every float operation rounded (Model/Vectors, Model/FloatVec) | error bounds of dot product, difference and square root composed over the reals; kernel evaluated witness with correctly rounded components |
| C159 | `ToQuat` and `FromQuat` with every float operation rounded (Model/Matrix at `Fl`) | error bounds of sums, square root, quotient and product composed over the reals in each of the four cases; the pivot is at least 1 by the case conditions, so nothing is lost in the division |
| C160 | `Compose` and `Decompose` with every float operation rounded (Model/Matrix at `Fl`) | Cauchy-Schwarz for the row lengths, error bound of the triple product for the sign, quotients near the rotation, then C159 |
| C161 | `operator-` with every float operation rounded (Model/Matrix at `Fl`, the clamp as a float comparison) | relative error of sum of squares, reciprocal and product in turn; then the dot products with accumulated errors |
| C162 | `to_string` and `operator<<` of float vectors with the digits of `%f` and `%g` (Model/VectorTextFloat) | half units of the last digit from rounding half to even; splitting at the blanks; digits determine the number of millionths |
| C163 | the exceptions of `pugiex.hpp` with the name as a pointer into the parsed text (Model/XmlError) | `size_t` arithmetic; splitting at blank and colon, digits determine the number |
| C164 | `PyAddType` over a dictionary and reference counts, the tables of both `InitType` (Model/PyInit) | invariant over the calls; last call for a name; the eleven names |
