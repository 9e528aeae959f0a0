# PreCore formal model: design

Source: /repo (PredatorCZ/PreCore, pinned). Proof assistant: Lean 4.33.0 with single Mathlib modules. Modules live in
`lean/Verif/`. `Model/*` hold the executable models (each definition cites file and lines and says what it simplifies),
`Spec/*` small independent specifications, `Lemmas/*` auxiliary facts, `Props/*` the property theorems, each with an
`example` showing that a non-trivial case meets its hypotheses. This file is generated by `tools/design.py` from
`tools/design_text.md`, `tools/design_rows.md` and the manifest.

## Conventions

* Fixed width integers are `BitVec n` (or `Nat` with an explicit bound when only counting matters); byte streams and object
  memory are `List (BitVec 8)`.
* A function that may throw or run into undefined behaviour returns a distinct outcome (`Option`, `Except` or a dedicated
  inductive type), never a default value.
* When the unchanged code violates a listed property, the negation is proved with a witness or, where possible, for the whole
  family of failing inputs (`..._violated`), and the strongest true part keeps the suffix `_partial` (or is stated for the
  exact set of inputs on which the code is right). The property's full statement stays in `properties.jsonl`.
* Concurrency (threads, printer) is a transition system; theorems range over all schedules.
* Floating point: `Model/Float32.lean` is exact binary32 arithmetic with round to nearest even (the
  tables for infinities and NaN are checked by `Props/Float32Special.lean`, the rounding error by `Lemmas/Float32Err.lean`); the vector and matrix
  functions are polymorphic: C40, C49 and C94 use them with exact field arithmetic, C130 to C133 with binary32 (`Model/FloatVec.lean`), every
  operation rounded once in the order of the source.

## Plan per property

@PLAN@

## What is missing or violated

@NOTES@

## What is modelled

Function by function: base_128, endian, bitfield, flags, blowfish and xor encryption, jenkinshash, jenkinshash3, string_view
(all searches, comparison, slicing), fileinfo, binreader/binwritter (core, ref, stream), supercore, reflector (setters,
getters, printers, registration macros, enum registration, binary save/load, reflector_io database, XML V1 and V2),
settings_manager (help, log), macroLoop, multi_thread, allocator_hybrid, pointer, zip_vfs and formats/ZIP records,
addr_ps3 and Morton addressing, BlockDecoder, DDS, WAVE, float, uni format codecs, vectors, vectors_simd, matrix44,
directory_scanner, stat (mkdirs, FileType), except, master_printer, virtual_iterator, unicode/tchar (TCHAR text, UPrintf, IsHelp), zip_vfs file objects,
ReflectorIO::Load with checked accesses, python lists and enums.

## What is not modelled

* 3ds Max interfaces (`MAXex/` apart from the parts named in the table), `es::mkdir` of `stat_win.inl` (the Windows directory scan and FileType are modelled, C152, the console colours by C143).
* pugixml (a tree type with its documented operations and a plain text fragment parser stands in), the C++ streams (a byte
  list with position and failure state), `std::string`, `std::map`, `std::vector`, `strtol`-like conversions (modelled by
  their documented contracts), CPython (reference counts and the loop protocol only), the file system (a tree, no links or
  permissions), the host's codecvt facets.
* Decimal text of floats: `strtof`/`strtod` and `%g` are modelled by their definition in C (correct rounding, "C" locale; Model/FloatText);
  the older reflection theorems take the conversions as parameters, `cEnv` instantiates them.
* Object layout chosen by the compiler: offsets and sizes are inputs; `std::string` has 32 bytes as in libstdc++.

## Trusted base

* Lean's kernel. No axioms besides `propext`, `Classical.choice` and `Quot.sound`; the table below is the output of
  `#print axioms`. No compiled evaluation is trusted; `decide` and `decide +kernel` are used for finite tables and concrete witnesses
  only and are checked by the kernel.
* The fidelity of the hand-written model to the C++ code, which was read but not executed. `seeded/` records how the theorems
  react to deliberately wrong models.
* The contracts of the libraries listed above.

### Axioms of each theorem

@AXIOMS@
