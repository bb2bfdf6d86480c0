# Design: a machine-checked model of Bean

Target: `luci-project/bean` (C++ library, example programs, Python tools) as found in `/repo`.
Everything below was derived by reading the source as text. Nothing was built or executed.

## 1. Approach

The model is a set of small, total, computable Lean functions that follow the control flow of the C++ and Python
code function by function. Each definition cites the lines in `/repo` it stands for. The layers are

* `Verif/Model/*.lean`: the model,
* `Verif/Spec/*.lean`: vocabulary of the statements that is not part of the interface itself (coverage, reachability,
  masked content, what a reference leads to, the content of a symbol in the file, ...), defined without helpers of the
  model's algorithms,
* `Verif/Lemmas/*.lean`: lemmas,
* `Verif/Props/*.lean`: the property theorems `Cnn_...`, each with an example that meets its hypotheses.

Most properties of the analysis are proved twice: for the phase of the analysis that is responsible for them (for
arbitrary intermediate states), and for results of the complete analysis in terms of the contents of the files
(`Props/Run`, `Props/Targets`, `Props/File*`; theorem names contain `_files`).

Faults are explicit outcomes. A failed `assert` and undefined behaviour (null iterator dereference, read outside of the
mapped file, division by zero) end a computation with `Fault.assert` / `Fault.ub`; a `Build` parameter says whether
assertions are compiled in. Python exceptions are outcomes as well. Loops that may not end have fuel, and theorems
speak about sufficient fuel or about all amounts of it.

Where the code violates a property, the negation is proved with a concrete witness, and a theorem named `_partial`
states what is left.

## 2. Representation

| C++ / Python | model |
|---|---|
| `uintptr_t`, `size_t`, `uint64_t` (64-bit host) | `BitVec 64`, wrapping arithmetic, unsigned order |
| `uint16_t` flags, 4/8-bit bit-fields | `BitVec 16`, `BitVec 4`, `BitVec 8` |
| `const char *` | `Option String` (`none` = `nullptr`), compared by content |
| `TreeSet<T, Cmp>` (dlh) | strictly key-sorted `List T`; `find`, `floor`, `ceil`, `insert` (keeps an equal element), `erase` |
| `HashSet`, `HashMap` (dlh) | `List` in insertion order with arbitrary bucket hash function and equality |
| `XXHash64` (dlh) | arbitrary function `List (BitVec 8) → BitVec 64` of the concatenated input bytes |
| capstone | arbitrary decoder function `address → bytes → Option Insn` |
| Elfo | lists of segments, sections, symbols, relocations, dynamic entries with arbitrary contents |
| Elfo `Relocator` | arbitrary functions for value and size |
| file system, glob, regular expressions | arbitrary functions |
| callbacks of an update | arbitrary functions of the history of events |
| `select`, `recv`, `send` | arbitrary sequences of events, including partial reads and writes |
| Python `int`, `str` | `Int`/`Nat`, lists of characters |
| uninitialised memory | arbitrary function (`Env.junk`) |

## 3. What is modelled

* `include/bean/bean.hpp`: `TLS`, symbols, sections, relocations, comparisons, `get`, `find`, `diff`, `dependencies`,
  `patchable`, comparison modes. `src/bean.cpp`: `analyze` (also for 32-bit files, whose sums of addresses are taken as 64 bit wide), constructors with their assertions, constructors of relocations, `diff`, `map`.
* `include/bean/update.hpp`: `BeanUpdate::process` (lines 13-117).
* `src/analyze.hpp`: `insert_symbol`, `read(segments)`, `read(sections)`, `add_flags`, `hash_external`, `run`.
* `src/analyze_x86.hpp`: `read`, `find_additional_functions`, `add_relocations`, `hash_internal`,
  `create_relocation`, `reconstruct_relocations`, `hash_function_offsets`.
* `include/bean/file.hpp`: choice of the path, checks, use of debug symbols (file contents are tables, checks of Elfo are parameters).
* `src/build_id.cpp`; `src/debug_sym.cpp`; of `src/dump.cpp` only the loop over the debug text (404-414), the lookups for lines of
  relocations (440-457) and the printing of a file (535-544).
* `examples/*.cpp`: listing of `diff`, counts and text of `diffstat`, nodes, edges, clusters and marks of `graph`, lines of the listings (`src/dump.cpp`, with the streams as in the standard library), options of all
  programs that compare two files, use of names in `map`, `update` and `update-code`, report of `update-code`, text of `diff` and `map`, detailed listing of symbols, debug text of data and functions,
  command lines of `hash` and `graph`.
* `tools/elfvars.py`: segments and variables from the tables delivered by elftools, identity and order of variables, duplicate elimination, merge of symbol table and debug information,
  hashed texts, functions and types, cache, command line with several files, address of the server, daemon with its connections and buffers, request lines, choice of file and debug symbols.
* `tools/dwarfparse.py`: description of locations (167-284), references, names of origins and ranges (29-75, 146-165, 286-314) and combination of entries with their abstract origins (369-410), given the
  attributes of each entry; names of source files (114-143).
* `tools/dwarfvars.py`: `get_type` with its cache, `get_loc`, `get_vars`, `iter_types`, `iter_func`, `get_def`, `iter_globals`, output of all lists. `tools/compare.py`: choice of objects, tree of files, calls of the program for differences, verdicts, number of updates, use of the summaries (with `json.loads` as in Spec/Json), texts of
  the cells without styles, sentence at the end.
  `tools/dbgsym.py`: search for debug files with cache and download, build ID and debug link. `tools/elfvarsd.sh`: arguments and executed commands.

## 4. What is not modelled

* Reading of files: ELF parsing (Elfo), system calls, attributes of the terminal and the size of the debug
  stream of the analysis (`src/analyze_x86.hpp:261-440`), set-up of capstone (`src/capstone.cpp`), `diet` and `id_empty` of
  `src/bean.cpp`, demangling, colours.
* The contents of instructions: decoding is a parameter. Properties about moved code assume `MovesWith` (instructions
  are the same at the other address, relative targets move along), those about reconstruction `SaneDecoder` (operands lie
  inside of instructions of at most 15 bytes). Both are shown to hold for the decoders of the examples.
* Reading of ELF and DWARF tables by elftools (with `section_in_segment`),
  description of other attributes than locations, files, references and ranges in `dwarfparse.py`, blocking of the daemon inside of a
  handler, memory limits.
* Time, memory consumption and concurrency (the code is single-threaded).

## 5. Trusted base

* The kernel of Lean 4.33.0. Theorems use at most the axioms `propext`, `Classical.choice`, `Quot.sound`; no axioms are
  added, there is no `sorry`, `native_decide` or `bv_decide`. Examples and witnesses are computed by `decide`, `rfl` and
  `decide +kernel`. Mathlib is not used.
* The reading of the C++ and Python code written down in the model.
* The behaviour of libraries whose source is not part of `/repo`:
  * dlh: `TreeSet` keeps elements strictly ordered, `insert`/`emplace` keep an equal element, `floor`/`ceil` are the closest
    lower/higher or equal element, an iterator incremented at the end stays there; `HashSet`/`HashMap` visit elements in the
    order of insertion; the result of `XXHash64` only depends on the concatenation of the bytes added; `ByteBuffer<128>`
    has room for each instruction; `String::compare` of null pointers compares like absent values; external identifiers hash the
    characters of names without terminator. `StringStream<n>` and `BufferStream` with size `n` keep `n - 1` characters and drop
    further ones; `flush` adds a null character and leaves the rest of the buffer; `String::copy` stops behind a null character;
    `pathsplit` splits at the last slash; `StringStream::str` points into the stream's own buffer.
  * Nothing is assumed about `Math::align_up`, the bytes hashed for a string in internal identifiers (`Env.str_bytes`, `Env.push_str`)
    and the hash function itself: they are arbitrary functions.
  * Elfo: accessors return the tables of the file, whose values are arbitrary; reading behind the bytes of the mapped file is
    undefined behaviour.
  * capstone: a function of address and bytes, without hidden state; instructions are neither empty nor longer than the bytes
    available; decoding stops at undecodable bytes.
  * Python: `sorted` is stable, dictionaries keep insertion order, `bytes.decode('ascii')` fails for bytes from 128 on,
    `select`, `accept`, `recv` and `send` as sequences of events. Entries of the debug information are a table indexed by offset whose
    numeric attributes are numbers. Notes and line programs as delivered by elftools are described in `Model/PyFiles` and `Model/DeclFile`.

## 6. Findings

Defects with a machine-checked witness (theorem in parentheses):

* Differences: dependents of a second changed symbol with the same identity are not reported (C10); a comparison mode
  outside of the range is accepted in release builds (C17), `-iiii` produces one (C75).
* Mapping: ambiguous targets are removed by their own address instead of the source (C19).
* Reading: an untyped symbol keeps a later typed one at the same address out (C28, C73); the order of table entries changes
  section attributes of symbols without size (C29); symbols that end exactly at the end of a region do not get its flags,
  symbols that grow beyond it keep them, thread-local ones get none (C31).
* Internal identifiers: padding that starts with a NOP is hashed (C34); a later branch hides the highest branch target, a
  reference gets lost (C35); prefixes behind an absent prefix group do not count (C36); segments are ordered by file offset but
  searched by address, so data may be hashed as zeros (C39); packed relative relocations of thread-local data are lost (C65).
* Reconstruction: displacements of entries of the global offset table and of targets below all symbols are not reproduced
  (C43); the relocation at the *target* is modified instead of the one at the location (C43, C44, C45, C67); distances of
  thread-local operands count twice (C66); the first target behind each processed function is skipped (C46).
* Function search: calls behind the end of a section create symbols outside of all sections (C70); writeable code ends a debug
  build (C71); a jump in a named PLT section (`-a`) whose slot has no relocation fails an assertion, or is undefined in release
  builds (C71).
* Flags: an `endbr` in the middle of a function makes the update place its redirect within an instruction (C91); functions that
  consist of a tail call are trampolines, their changes get lost in an update (C92); symbols from end markers in `.plt` are no
  trampolines (C92); with the flag to keep unused symbols, the marker at the end of a code section fails an assertion of the update
  (C62).
* Completion: a symbol behind the end of its section fails an assertion (debug build) or gets a size near 2^64 (release build), e.g. the
  marker at the end of a RELRO region that ends behind the last section; section indices of symbols are not checked (C93).
* Uninitialised members of relocations decide about the result of an update, and with reconstruction of relocations also about the mapping (C47); if a relocation is refused, a conditional branch to another function is redirected as if it was
  always taken, and an instruction reading a variable is redirected to the variable (C64).
* Build identifiers: an assertion reads uninitialised memory; identifiers longer than 20 bytes are cut (C48).
* Debug files: missing slash, even wrong files are taken (C50); repeated searches fail (C49); the test for the root directory accepts siblings
  (C74).
* Programs: `diff` shows changed symbols as unchanged (C51), `diffstat` may count more removed symbols than there are (C54),
  a symbol without section name leaves a cluster open (C53), the printing of the debug text may not end (C77), the options for names are without effect or inverted (C78),
  printing fails for empty results (C79).
* Tools: results depend on the order of input (C55), entries of another category are lost (C56), cached answers for other files
  (C57), two bytes or a half-closed connection end the daemon (C59), mixed-up types (C80), ambiguous hash texts (C81), `\r\n` counts twice
  (C82), updates without available hashes (C83), division by zero for a single version (C84), endless recursion for circular types (C86),
  sizes are not part of type hashes (C87).
* Debug information: the reference to an abstract origin is taken as stored in the file (`attr.raw_value`, dwarfparse.py:311), although it
  usually counts from the start of its unit. In all units but the first the origin is not found or another entry is taken for it
  (C95_counterexample). Circular origins are no parse error but exhaust the recursion (C95_circle). For entries that only have a line of
  their own the place depends on the order of entries: `a.h:12` or `a.h:10:12` (C95_order).
* Variables of the debug information: a constant without operation for thread-local addresses is taken for a thread-local place, while the
  operation `GNU_push_tls_address` is not known so that such thread-local variables are missing (C96_counterexample). For a location list of a
  unit without base address `_desc_locations` prints a message and delivers `None`, on which `get_loc` fails (C96_no_base).
  The definition of a variable that is declared before (`extern` in a header, static member) has its type in the declaration
  (`DW_AT_specification`), which is not followed: the variable is missing (C96_declared_counterexample).
* Sizes: the number of elements of an array behind `const` or a typedef is multiplied twice by `get_def` (C101_array_counterexample); it fails
  for arrays without `-n` and drops variables without `-a` (C101_options_counterexample). `DW_AT_count` (clang) is not read: such arrays have one
  element, and a change of their length changes neither identifier nor hash (C101_count_counterexample).
* Positions of variables: a variable that ends where the protected memory ends is taken for writable (`<` instead of `<=`, elfvars.py:165, 193;
  C97_counterexample). A single absolute or common symbol with a size makes the summary fail with a `KeyError` (C97_unmapped). Offsets count
  from the own segment, but the segment is not part of a variable's identity, so of two variables of the same name in two writable segments one
  may be lost (C97_lost). Entries of symbol table and debug information are compared before their categories are, so that a sound file is
  rejected (C97_mismatch). The alignment of thread-local variables is the offset in the page for the debug information only (C97_tls_align).
* Functions of a summary: of several exported names for one address only the first one counts, so that renaming `memcpy` next to `__memcpy` is
  not noticed (C98_alias); of several functions of one name the last one in the debug information counts (C98_last); with debug information,
  exported functions without (assembler code) do not count (C98_missing); names are hashed without separators (C98_ambiguous).
* Types of a summary: references and volatile types add nothing to the identifier, so `struct { int a; }` and `struct { int &a; }` have
  the same one. Only the first of them counts, with a message for the other one: order matters and changes are lost (C99_counterexample, C99_lost).
* Moved files: without resolved relocations the addend of `R_X86_64_IRELATIVE` (an address) is part of the external identifier
  (C100_counterexample); so are addresses in front of all symbols (C100_unanchored_counterexample). The same file linked to another address differs.
* Identifiers of positions in functions with an access to `fs:0x28` (check value of the stack) depend on the distance to the last
  symbol in front of the placeholder address of thread-local storage, hence on the link address (C100_positions_counterexample).
  Threads inside such a function are not matched in the moved file although all symbols are equal.
* Opening of files: `BeanFile::debug_symbols` keeps a pointer into a temporary `DebugSymbol` (file.hpp:96) and opens it after its destruction,
  so each debug file that is found means undefined behaviour (C102_debug_counterexample). An empty root directory makes `resolve` read in front of
  its text (C102_root_counterexample).
* Marks of the graph: weak and unique symbols are not shown as visible (C104_weak_counterexample). If a local label without type is read before a
  global function at the same address, the function stays local (C104_label_counterexample): `emplace` does not replace the label.
* Listing (`dump`): with `-vvv` the names of imported symbols are not shown, since the name is printed only if there is a symbol in front of the
  target, which is zero (C106_import_counterexample). For relative relocations the absolute addend is printed behind the name of the symbol
  (C106_relative_counterexample). Types without name (39, 40, 43 and following) bring a line break (C106_break_counterexample). A target in front
  of all symbols reads like an addend (C106_target_counterexample). Names are not quoted (C105_names_counterexample, C105_break_counterexample).
* Table of versions: whether a category changed is decided by the sum of sizes, which can be zero modulo 2^64 for changed symbols
  (C107_sections_counterexample).
* bean-update-code: with a single file and two base directories (a supported call) the path of the new file is a null pointer when it is printed
  (C108_path_counterexample). Names with blanks make lines ambiguous (C108_names_counterexample). The option `-i` is parsed, but has no effect.
* compare.py: paths below a directory whose name starts with a dash are passed without protection, hence read as options by bean-diffstat, which fails
  (C109_dash_counterexample).
* bean-map prints a null pointer, too, for a single file and two base directories (C110_path_counterexample).
* Entries of a section `.plt.got` without marker for indirect branches (`jmp` after `jmp` does not start a function): the first entry gets the name of the
  last imported function, the others have no symbol at all (C111_unmarked_counterexample).
* Detailed listing: an empty line in the debug text, e.g. because of a symbol name with two line breaks, is never left (`dump.cpp:407-413`), the output is
  endless (C112_loop_counterexample). Conditional branches are not shown as such (C112_conditional_counterexample). Without `BEAN_VERBOSE` the line break
  behind the name is missing (C112_line_counterexample).
* Dump of data: a relocation at the last byte of a line is listed on the next line, too (`analyze_x86.hpp:400` looks for `a - 16`, C113_twice_counterexample);
  after a relocation without size all further relocations are missing (C113_lost_counterexample).
* Disassembly in the debug text: bytes beyond the twelfth are missing (C114_long_counterexample), references to the address zero have no note
  (C114_zero_counterexample), and operands with both FS and RIP show one of two references (C114_both_counterexample).
* `elfvarsd.sh`: `-N` swallows the next argument (two `shift`, C115_skip_counterexample); the loop that removes `-d` uses the variable `i` that is
  not set, so that only the first element is checked, and `-d` among own options is kept (C115_nodebug_counterexample); options after `--` replace
  only the first default option (C115_own_counterexample).
* `dbgsym.py`, `elfvars.py`: only build IDs whose note has 36 bytes are accepted, so MD5 or UUID identifiers are ignored (C116_size_counterexample); the
  owner of the note is not checked (C116_owner_counterexample); `dbgsym.py` takes the first, the library the last section (C116_two_counterexample).
* `elfvars.py`: `-D` has no effect without `-d` (C117_extern_counterexample); with both, every file without debug information outside of the base directory (by
  default the current directory) cannot be analysed (C117_outside_counterexample); absolute names ignore the base directory (C117_base_counterexample).
* `dwarfvars.py`: with a base directory, a file outside of it is replaced by the file of the same name within (C117_dwarf_counterexample).
* `compare.py`: a restart caused by a hash that only the older version has is not explained at any level of verbosity (C118_hash_counterexample); added or removed
  symbols of size 0 are not shown (C118_size_counterexample); "100%" may be printed although an update is impossible (C119_all_counterexample).
* `dwarfparse.py`: relative directories of source files are completed only if they start with a dot (C120_relative_counterexample); `dwarfvars.py` does not recognise
  system headers whose path contains `..` (C120_dots_counterexample).
* `dwarfvars.py -j` prints the representation of a Python list, which is not JSON unless it is empty (C121_json_counterexample); names with parentheses (templates) make the
  lines of variables ambiguous (C121_name_counterexample); the hash of all types depends on their order (C121_total_counterexample, noted as open in the source).
- C73_import_counterexample: with attributes as part of the identifiers (`-a`), the name of a function that a symbol table declares inside of a `.plt.` section is replaced by the name of the import (src/analyze_x86.hpp:143-146); outside of such sections declared names remain (C73_all_partial).
* Without assertions a file of an unsupported machine has an empty set of symbols (src/bean.cpp:31), so that any two of them are reported as updatable
  (C122_empty_counterexample); debug symbols are only compared by members of the header (and only with assertions), so those of another build are used
  (C122_foreign_counterexample).
* An approved update may move variables by whole pages, drop variables of the old version, and have several variables for one of the old version
  (C123_moved_counterexample, C123_removed_counterexample, C123_shared_counterexample): the comparison only asks whether there is a symbol of this identity.
* `compare.py`: objects in hidden directories are compared, but the tree of files leaves them out (C124_hidden_counterexample).
* 32-bit files: instructions refer to data only relative to the instruction pointer or with `fs`, which 32-bit code does not use, so functions do not depend
  on the data they access (C125_unseen_counterexample). Numbers of relocations for x86-64 are used for 386 as well: `R_386_TLS_TPOFF32` is taken for an indirect
  relocation (C125_tls_counterexample), `R_386_IRELATIVE` is not recognised (C125_indirect_counterexample). Packed relocations are read with eight bytes
  (C125_packed_counterexample). Jumps in sections `.plt.*` violate an assertion if attributes are hashed (C125_plt_counterexample).
* Debug information: references of types are taken as relative to the unit whatever their form is (dwarfparse.py:74-75), so types of other units are confused
  (C126_section_counterexample). If elftools has no text for a type, the member is a number instead of a pair (dwarfparse.py:290) and dwarfvars.py:69 fails
  (C126_text_counterexample). A declaration without name makes the description of the origin fail, and nothing is taken over from the origin
  (C126_lost_counterexample); the name of the declaration is overwritten if there is an origin as well (C126_both_counterexample). Without start address of the
  unit ranges are not given, even if they are absolute (C126_ranges_counterexample).
* Downloads (`dbgsym.py`): the file is written in place while it is received, so a lost connection leaves a part of it in the cache, which is delivered by the next
  search (C127_broken_counterexample). The path in the cache is relative, hence `elfvars.py:283` fails for each downloaded file (C127_summary_counterexample). The last
  service is asked with two slashes (C127_url_counterexample).
* Address of the server (`elfvars.py:485-502`): ports of five digits above 65535 raise an uncaught error (C128_port_counterexample), addresses of IP version 6 and hosts
  with underscores silently become files (C128_files_counterexample), the file of the socket is left behind if a client ends the server, and the next start is refused
  (C128_restart_counterexample).
* `elfvars.py` delivers no result for files outside of the base directory, by default the current directory, as their relative path cannot be computed
  (C129_outside_counterexample). `compare.py -N` does not pass a base directory; so, if called from elsewhere, it ignores all variables and offers updates that are
  not possible (C129_compare_counterexample). With `-p` there is an empty line behind each result (C129_lines_counterexample).
  With `-c`, a copy of a file gets the result of the first one including its path (C129_cache_counterexample).
* Reconstructed relocations of 32-bit files have the numbers of x86-64, so short jumps are listed as `R_386_TLS_IE` and accesses to the global offset table as
  `R_386_GOTOFF` (C130_reconstructed_counterexample).
* `compare.py` sorts versions with `natsorted`: `1.0~rc1` comes after `1.0`, so the update to the candidate is shown instead of the one from it
  (C131_candidates_counterexample). Versions whose names differ only in case or leading zeros have no defined order, it can be different in each run (C131_ties_counterexample).
* `update -b OLD -b NEW NAME` reports each update as possible if a file NAME exists in the current directory or as an absolute path: `BeanFile::resolve` prefers it to
  the directories, so the file is compared with itself (C132_directories_counterexample). With two directories and no name, a null pointer is opened (C132_null_counterexample).
* `map -b OLD -b NEW NAME` streams the null pointer `new_path` (C134_map_counterexample), although the usage text of the other programs allows these arguments.
* The level of details is a byte: 256 letters `v` give no details (C75_verbose_counterexample).
* `operator<<` for identifiers (bean.hpp:468) writes `\\e23m` instead of `\\e[23m`: for an unknown identifier `{unknown ID3m}` appears, and the following text is in
  italics (C135_id_counterexample). Names of symbols are printed with their control sequences (C135_name_counterexample).
* `dbgsym.py` ends with an exception at the first file that is not below the directory given with `-b` (dbgsym.py:25), also if it is only reached by a symbolic link, since
  only the directory is resolved; the files behind it get no line (C136_outside_counterexample).
* Sizes stored in a form that dwarfparse.py does not know (`DW_FORM_implicit_const`, as gcc does for pointers in version 5, `udata`, `sdata`) are texts; `get_type` converts them
  nowhere (dwarfvars.py:181) and compares a number with the text (dwarfvars.py:193): the variables `int *p, **q` end the program with `AssertionError`
  (C85_form_counterexample, C137_twice_counterexample). Bounds of arrays given by expressions raise `TypeError` in `to_int` before the test that should replace them by zero
  (dwarfvars.py:169-174), and those given by references become the offset of the entry (C137_bound_counterexample).
  Offsets of members stored as `udata` or `sdata` are looked up as locations (dwarfparse.py:330), which fails: they are lost, and the layout of a structure does not count
  (C137_offset_counterexample).
* Of an encoding that the table of elftools does not name, the number is cut as if it had the prefix `DW_ATE_` (dwarfparse.py:321): nothing is left, and all such encodings
  are the same to the hash of the type (C138_encoding_counterexample).
* compare.py puts `^` and `$` around the text of a pattern without a group (compare.py:60, 74): with `--verdir '1.0|2.0'`, the directories `1.0-rc1` and `12.0` are versions,
  too (C139_alternatives, C139_alternatives_counterexample).
* The definitions of globals have one `const` at the start for whatever is constant (dwarfvars.py:218-221): `char *const p`, `const char *p` and `const char *const p` are all
  listed as `const char* p` (C140_place_counterexample), and `const void *v` as `const * v`, since `void` is only added to an empty text (dwarfvars.py:256-258, C140_void_counterexample).
* dwarfvars.py as a program refuses names that exist below the base directory only (dwarfvars.py:396-398), so that the lines that look them up there (dwarfvars.py:43-44) are of no use
  (C141_below_counterexample); for a file outside of the base directory it silently reads the one of the same name below it (C141_outside_counterexample); and it lists nothing,
  without an error, if the debug file found has no debug information (dwarfvars.py:55-58, C141_empty_counterexample).
* Numbers and offsets of bits of bit-fields are not part of the hash of a structure (dwarfvars.py:136-145): `struct { unsigned a : 3, b : 5; }` and `struct { unsigned a : 5, b : 3; }`
  are the same (C87_bits_counterexample).
* compare.py puts the name of the object into a text with markup without protecting it (compare.py:281): of `lib[dbg].so` the summary shows `lib.so` (C142_tag_counterexample;
  assumes the documented treatment of tags by the library rich).
* compare.py with `-o a.html -o b.txt` (instead of `-o a.html b.txt`) empties `a.html` and writes to `b.txt` only, without an error (compare.py:40, C143_again_counterexample;
  assumes the documented behaviour of Python's argparse).
* capstone_dump reports success although it stopped at bytes that cannot be decoded (capstone.cpp:72-85, C144_success_counterexample); it is not called by the library itself,
  and always uses the 64-bit mode.
* Definitions of enumerations with an underlying type, which current compilers describe, end with the name of this type behind the brace, `enum f { C = 0, }int`
  (dwarfvars.py:249-254, C145_enum_counterexample); members of types without
  name behind pointers are not shown at all, so that different types have the same definition (dwarfvars.py:222-230, C145_unnamed_counterexample).

Noticed while reading, without theorem:

* Decoding stops at undecodable bytes. RIP-relative memory calls take the address of the slot for a function. The target of a call
  with bits of the flag for thread-local addresses fails an assertion in debug builds. With reconstruction, local targets become references.
* `DebugSymbol::find(Elf)` streams into itself and streams a null pointer if the file is missing. `get_buildid` of the tools needs
  identifiers of 20 bytes and takes the first note, the library the last section.
* `elfvars.py`: a FIFO or device blocks the daemon; input buffers grow without bound; an error of `accept` ends the
  daemon; bounds of variable-length arrays (location expressions) raise a `TypeError`.
* For invalid identifiers of symbols, `operator<<` writes the escape sequence `\e23m` without bracket (bean.hpp:467).
* Relocations of the separate debug file are merged into those of the binary. A function that continues in a dropped NOP-only
  symbol keeps a reference to it.

## 7. Properties

Status as in `MANIFEST.json`. A theorem `Cnn_...` belongs to property Cnn; names ending in `_partial` prove a restricted form, names ending in `_counterexample` (and the other ones named in the notes) prove that the property fails in a concrete case.

| id | property | status | remarks |
|---|---|---|---|
| C01 | TLS address translation is lossless and collision free | proved | C01_flag_bits_are_lost shows that the restriction to addresses without flag bits is needed. |
| C02 | TLS translation keeps the address order and sorts all TLS symbols last | proved | Bound 2^52 is needed: C02_bound_needed. |
| C03 | Bean::get returns a symbol that really contains the address, and finds it whenever symbols do not overlap | proved | Completeness needs disjoint symbols without wrap-around; C03_marker_hides and C03_wrap_hides show that. |
| C04 | Bean::find returns the closest symbol at or below an address | proved |  |
| C05 | A binary does not differ from itself | proved |  |
| C06 | Diff without dependencies reports exactly the changed symbols | proved | For both comparison classes with an arbitrary skip callback; the representative is the lowest symbol of that identity. |
| C07 | Size-zero markers are never reported as changed | proved |  |
| C08 | Dependency tracking terminates on every dependency graph | proved |  |
| C09 | Dependency tracking reports only symbols that depend on a change | proved |  |
| C10 | Dependency tracking reports all executable dependents of a change | partial | False as stated: the dependents of a second changed symbol with equal identity are lost (C10_counterexample). Proved: closedness of the report in general, and full completeness if no two symbols have equal identity. |
| C11 | Mode 'writeable internal' drops exactly the writeable symbols with a known internal ID | proved |  |
| C12 | Mode 'executable extended' drops exactly the non-executable symbols with a known internal ID | proved |  |
| C13 | Weaker comparison modes never turn a patchable pair into an unpatchable one | proved | C13_dependencies_counterexample shows that the claim does not extend to comparisons with dependencies. |
| C14 | The patchable verdict is exactly the documented criterion | proved |  |
| C15 | The patchable verdict does not depend on order or duplicates and is monotone | proved |  |
| C16 | Diff results do not depend on the hash function of the containers | proved |  |
| C17 | An invalid comparison mode never yields a positive verdict | partial | False in a release build (C17_counterexample). In a build with assertions the call fails (C17_invalid_mode_partial). |
| C18 | Mapped addresses lie in symbols with equal section attributes and compatible type | proved |  |
| C19 | Ambiguous source addresses are not mapped and unambiguous ones survive the cleanup | partial | False as stated: ambiguous targets are removed by their own address instead of by source address (C19_ambiguous_counterexample), and unrelated unambiguous pairs are lost for the same reason (C19_unambiguous_lost_counterexample). C19_unambiguous_partial: if no source address has two justified targets, all unchanged symbols keep their pair. |
| C20 | Mapping a binary onto itself is the identity | proved | Under distinct places and, with names, distinct names; C20_names_needed shows that this is needed. |
| C21 | Every mapped pair has a reason | proved |  |
| C22 | Update never redirects trampolines or data and only to the start of a mapped symbol | proved |  |
| C23 | A full redirect stays inside the old function and before its first relocated instruction | proved | For relocations whose instruction lies in the symbol, as the property demands; C23_offset_counterexample shows what uninitialised instruction offsets do. |
| C24 | Update filter flags are respected | proved |  |
| C25 | Each relocation is processed at most once and relocated only with a mapping | proved |  |
| C26 | Update is equivariant under the load addresses | proved |  |
| C27 | Importing symbols keeps the symbol list strictly ordered and never loses or shrinks a symbol | proved | C27_wrap_counterexample shows that the guard on ranges at the end of the address space is needed for the sizes. |
| C28 | A typed symbol replaces an untyped one at the same address | partial | False for untyped symbols: C28_typed_dropped shows that such an insertion never has an effect, C28_counterexample is a witness. Proved for symbols of unknown type and section, file and common symbols. |
| C29 | Symbol attributes follow the section, independent of the symbol table order | partial | False as stated: an end marker inserted after a symbol without size resets its attributes (C29_counterexample). Proved for symbols with a size if no untyped entry shares the address. |
| C30 | Reading the symbol table imports each defined symbol | proved | C30_size spells out which earlier symbols take precedence. |
| C31 | Section flags are given to exactly the symbols inside the flagged region | partial | Soundness is proved as stated for the sizes known when the flags are set, and regions of the file are exactly those announced (C31_section_regions, C31_segment_regions). For results of the complete analysis: C31_files_sound_partial (the symbol starts in the region), as sizes grow afterwards (C31_grown); without reconstruction symbols lie completely in regions that end with a symbol (C31_files_inside_partial), which all RELRO regions do (C31_relro). Completeness is false for symbols that end at the end of the region (C31_counterexample, C31_files_counterexample) and proved for all others (C31_files_complete_partial). Thread-local symbols never get a flag (C31_thread_local). |
| C32 | Symbols cover the section without gaps | proved |  |
| C33 | The internal ID of a function does not depend on its address | proved |  |
| C34 | NOPs and trailing padding do not influence the internal ID | partial | The hash of a function skips NOPs and trailing zero padding, and the size of the padding is irrelevant, as long as no NOP precedes the padding. C34_counterexample: padding that starts with a NOP is hashed. |
| C35 | Each out-of-function target becomes a reference and nothing else does | partial | Holds for functions without backward branch behind a branch beyond the end; C35_counterexample: a later branch overwrites the highest branch target, so that a reference is lost. |
| C36 | Instructions with different effect contribute differently to the internal ID | partial | Equality of the hash input is equivalent to equal forms (mnemonic, operands, prefixes up to the first zero). C36_counterexample: prefixes behind an absent prefix group do not contribute, so a word store and a long store share an identifier. |
| C37 | The internal ID of data is its content with relocated bytes masked | proved |  |
| C38 | Moving data by whole pages keeps its internal ID, moving writeable data otherwise changes the hash input | proved |  |
| C39 | Zero-initialised data is identified by its size only | partial | Zero-initialised data: proved. File-backed data is never taken for zero-initialised in a debug build with separate segments (C39_debug) and in any build with segments ascending in offset and address (C39_backed_partial). C39_counterexample: in a release build the segment lookup by file offset lets file-backed data be hashed as zeros. |
| C40 | The external ID is determined by relocations and referenced symbols | proved |  |
| C41 | Dependencies are the inverse of references | proved |  |
| C42 | Only unreferencing, unnamed, content-free symbols are dropped | proved |  |
| C43 | Reconstructed relocations reproduce the original displacement | partial | C43_displacement_partial: relocation exists at the operand and reproduces the displacement, for decoders that keep operands inside of instructions of at most 15 bytes. False as stated: entries of the global offset table that are not imported (C43_got_counterexample), targets below all symbols (C43_bare_counterexample), targets at the location of another relocation (C43_location_counterexample), operands that use both the segment of the thread-local storage and the instruction pointer (C43_segment_counterexample). Instructions with several references are included as long as those at the same location agree. C43_files_partial and C43_files_counterexample state the same for results of the complete analysis in terms of the files. |
| C44 | Reconstructed relocations point back to their instruction | partial | Proved for relocations whose location is not itself the target of a reference in the function; C44_counterexample shows that such a reference overwrites the instruction offset. For results of the complete analysis: C44_files_partial, C44_files_counterexample. |
| C45 | Existing relocations get access information by reconstruction | partial | False as stated: the lookup uses the target instead of the location, so that relocations at other locations are modified (C44_counterexample), and a relocation of the file at a reconstructed location is dropped with its reference (C45_replaced, C45_counterexample). C45_attached_partial: all other relocations of the file are kept. For results of the complete analysis: C45_files_partial (a relocation of the file is attached if and only if nothing was reconstructed there), C45_files_counterexample. |
| C46 | Each relocation target inside a function gets an offset ID | partial | False as stated: the first target behind each processed function is skipped, so that a function without reference to its start may get no identifier at all (C46_counterexample, from a file with reconstructed relocations). C46_recorded_partial: all targets are recorded if something refers to the start of the function; C46_identifiers: every recorded identifier belongs to such a target and is determined by the code in front. |
| C47 | Relocation records are fully determined by their input | partial | False for update: a pointer in the data is changed or not depending on memory the constructor of a relocation does not initialise (C47_counterexample, an update restricted to branches). Proved for analysis without reconstruction of relocations: outcome of the analysis, mapping and differences do not depend on it apart from the two members themselves (C47_analysis_partial, C47_map, C47_diff); with reconstruction the symbols agree up to the identifiers of positions (C47_reconstructed_partial); an update that is not restricted to branches and treats local branches like other relocations does the same calls (C47_update_partial). With reconstruction the claim is false for the mapping, too (C47_map_counterexample: a relocation of the file in the code of a function keeps the members as they are; whether a position inside of the function is mapped depends on them). |
| C48 | Build IDs are rendered losslessly | proved | For all note contents up to 20 bytes as stated; C48_truncated: longer identifiers are cut and no longer distinct; C48_uninitialised: in debug builds the assertion on the last byte of the buffer reads uninitialised memory for identifiers shorter than 20 bytes (assumptions on BufferStream of dlh are in the model). If several sections have an identifier the last one counts. C48_no_file: no identifier without file. |
| C49 | Debug file lookup returns the first existing candidate in the documented order | partial | C49_first and C49_binary hold for an object without previous successful search and paths up to PATH_MAX; false for repeated searches, the stream is not emptied after success (C49_again). The third place is described as in the code, see C50. |
| C50 | C++ and Python debug file lookup agree on the global debug directory | partial | False as stated: the slash between directory and debug link is missing (C50_link), even a wrong file can be taken (C50_wrong_file); the tool replaces the suffix where the library appends one (C50_suffix). C50_agree_partial: both look at the same places in the same order if there is no debug link (or the file is in the root directory) and the name of the file has no dot. |
| C51 | The diff tool prints each changed symbol once, in address order | partial | C51_listing: the listing has the whole report about the old file and each symbol of the new file once, in order of addresses, marked as added iff the report about the new file contains it. Missing: reports contain equal identities only once (C06), hence C51_duplicates: a changed symbol may be shown as unchanged. |
| C52 | DOT identifiers are valid | proved | C52_normalize is the statement for all texts. Beyond it: C52_cluster (names of clusters are valid identifiers), C52_identifier_partial and C52_counterexample (the name of the graph is a valid identifier iff the text neither is empty nor starts with a digit). |
| C53 | DOT clusters are balanced | proved | C53_clusters and C53_balanced for all symbols with named sections, as stated; C53_counterexample: a symbol without section name leaves a cluster open. |
| C54 | diffstat counts are consistent | partial | C54_counterexample: counts of removed symbols may exceed the totals, which are those of the new file. C54_bounds_partial: added symbols are bounded by the totals (sizes if they are representable); C54_removed_partial: removed ones by the old file. C54_disjoint: categories are disjoint as stated; C54_writeable_code: without the restriction they are not; C54_duplicates: equal identities are counted once (C06). |
| C55 | Variable summary hashes do not depend on the order of input | partial | The identities of the variables do not depend on the order (C55_identities). The hash does not either if entries with the same category, value and name are equal (C55_text_partial); without this it does (C55_counterexample), as the first of them in the input is kept. |
| C56 | Duplicate elimination keeps one entry per distinct symbol | partial | Result is strictly sorted and from the input; complete if no two categories share value and name. Otherwise an entry of a further category is lost (C56_counterexample). |
| C57 | The result cache never returns data of another request | partial | Keys determine build identifier and eight options (C57_key), each answer is fresh, from the initial cache or from an earlier request with this key (C57_history), hence right if results are functions of the key (C57_partial). The negation for files without build identifier, for the option for system types and for the base directory is proved. C57_by_id covers requests by build identifier. |
| C58 | Daemon answers do not depend on how the request stream is split | partial | For arbitrary clients, chunks and partial writes: all answers are those of a sequential order of the requests (C58_sequential), determined by the bytes for a single client (C58_one_client) and for answers that are independent of other requests (C58_split), in particular for requests of paths with the cache of C57 (C58_cache_partial). Requests for build identifiers depend on other clients (C58_by_id). Which lines ask for identifiers: C58_id_lines. |
| C59 | A client cannot terminate the daemon | partial | The property is false: C59_non_ascii (two bytes of any client end the daemon at any time) and C59_half_close. C59_reasons lists exactly the events that end it; C59_partial shows that it goes on otherwise. Blocking inside of the handler (e.g. opening a FIFO) is not modelled. |
| C60 | The comparison table only considers objects present in all versions | proved | For all directory contents and patterns; glob and regular expressions are parameters. |
| C61 | Unchanged symbols are mapped | proved | The exception for ambiguous targets is the defect of C19. |
| C62 | The update process does not abort | proved | C62_files: for results of the analysis, with functions that have an instruction. The size hypothesis is needed: C62_tiny_counterexample; with the flag to keep unused symbols the marker at the end of a code section makes the assertion fail for real files (C62_end_marker). |
| C63 | Relocations are changed only in unchanged code | proved |  |
| C64 | A redirect at an instruction does not change conditional control flow | partial | False for relocations that are not branches inside of a function: C64_counterexample. Proved for conditional branches inside of a function. |
| C65 | A symbol carries exactly the relocations in its range | partial | Proved for symbols with regular addresses. C65_counterexample: packed relative relocations of thread-local data are never attached (C65_tls). |
| C66 | Reconstructed relocations of thread-local operands reproduce the distance | partial | Location, target, type and name are right (C66_tls_partial), but the addend is the distance itself, so that applying the relocation for a named variable gives twice the distance (C66_doubled, C66_counterexample). For results of the complete analysis: C66_files_partial, C66_files_counterexample. |
| C67 | Access flags of reconstructed relocations describe the operand | partial | Same restriction as C44 (C44_counterexample: an unconditional call is marked conditional). For results of the complete analysis: C67_files_partial. |
| C68 | Offset identifiers do not depend on the location of the code | proved | For all pairs of analysed files; the hash function is a parameter. |
| C69 | Function discovery finds all starts and nothing else | proved | For every sequence of decoded instructions (the decoder is a parameter); decoding stops at bytes that are no instruction, as in the code. The two theorems leave open only starts behind an end of code where an earlier jump of a previous function leads over them. For results of the analysis of a file see C94. |
| C70 | Discovered functions lie within a section | partial | False as stated: a call with a target behind the end of the closest executable section creates a symbol outside of all sections (C70_counterexample). C70_inside_partial: holds if no call leaves the section found for its target, without thread local code sections. |
| C71 | Function discovery does not abort on ordinary files | proved | Conditions on the file are explicit (PlainCode); they include files whose PLT sections are named (-a) as long as every jump in there goes to a relocated slot. C71_writeable_code shows that the assertion fails for sections with writeable code, C71_slot_counterexample that a jump without relocation in a named PLT section aborts debug builds and is undefined in release builds. |
| C72 | The result of the analysis is well-formed | proved | For the model of the complete run (all phases). C72_coverage_default: without the flag to keep unused symbols the memory of unnamed symbols without references is not covered. C72_coverage_code: in each case only ranges with nothing but NOPs are left out. |
| C73 | Declared symbols survive the analysis | partial | False as stated: if an untyped symbol is at the same address, a later function or object is not inserted (C73_untyped: emplace into the tree keeps the old symbol); if attributes are part of the identifiers, the name of an imported function replaces the declared name of a function in a `.plt.` section (C73_import_counterexample). C73_declared_partial, C73_all_partial (also for thread-local symbols): holds if no untyped symbol is declared at this address, sizes do not wrap around, and unused symbols are kept or the symbol has a name; the name remains unless the address is that of code in a `.plt.` section whose functions get the names of imported ones. |
| C74 | Debug symbols are looked for in the directory of the binary | partial | False as stated: the test whether the file is below the root directory compares a prefix without separator (C74_sibling). C74_directory_partial: holds for files below the root directory. |
| C75 | Command line options select the documented settings | partial | False for more than three letters i (C75_counterexample: conversion to an enumeration outside of its range). C75_settings for all runs that go on; C75_mode_partial, C75_defined, C75_files. C75_verbose: the level of details is the number of letters v modulo 256, hence 256 letters v are like none (C75_verbose_counterexample). For the opening of files see C132 to C134. |
| C76 | The graph has an edge for each reference between symbols | proved | For nodes and edges of symbols; the nodes for imports and the entry point are not modelled. |
| C77 | Printing of the debug text terminates | partial | False as stated: C77_hang, the loop does not end if the text has an empty line; C77_unterminated: a null character is printed for a last line without newline. C77_lines_partial: texts without empty lines. The text itself (disassembly) is not modelled. |
| C78 | The option to ignore symbol names does so | partial | False: C78_map_names (names are never used by bean-map), C78_update_names (bean-update-code uses them iff the option is given). |
| C79 | Printing never fails | partial | False for results without symbols (C79_empty) and single symbols printed with the default argument (C79_no_tree); C79_print_partial for all others. Columns and texts are not modelled. |
| C80 | Symbol table and debug information are combined without loss | partial | C80_assertion, C80_merge and C80_order hold for all lists. As names only have to be prefixes, a variable of the symbol table may get the type of another one and appear twice (C80_duplicates). |
| C81 | Equal category hashes mean equal layout | partial | Holds without names in the text and for type hashes free of the delimiters (C81_layout). With names it is false (C81_names). |
| C82 | Each request line is answered by exactly one line | partial | C82_one_line and C82_count hold for line feeds; lines ended by carriage return and line feed count as two requests (C82_crlf). |
| C83 | An update is only offered for equal variables | partial | C83_verdict describes the verdict; the property holds if hashes of both versions are available (C83_update_partial), and is false otherwise (C83_missing). |
| C84 | The summary counts updates between consecutive versions | partial | C84_modes and C84_bound hold; the summary exists exactly for two versions or more (C84_summary), a single version leads to a division by zero (C84_single). |
| C85 | Types of variables do not depend on the order of requests | partial | C85_order, C85_succeeds for sizes that are stored in a form taken as a number (DW_FORM_data1, 2, 4, 8); false for other forms, such as DW_FORM_implicit_const, where the order and the other requests matter (C85_form_counterexample, C137). |
| C86 | The search for a type ends | partial | C86_ends_partial holds for entries that do not need themselves; circles never end (C86_circle), in particular a struct with a reference to itself or a static member of its own type (C86_counterexample). |
| C87 | Types of equal hash have equal layout | partial | C87_parts_partial (with names off): equal hashes mean equal parts or a collision of the digest of two different texts; conversely equal parts have equal hashes (C87_same), aliases make no difference (C87_alias). Sizes of base types do not enter the hash (C87_counterexample), nor do numbers and offsets of bits (C87_bits_counterexample). |
| C88 | The same code and data is recognised in another file | proved | Stated for results of the complete analysis in terms of the contents of the files; for data in segments that are ordered by offset and address (see C39), and for a decoder whose results move along with the code (MovesWith). |
| C89 | Pointers lead to symbols | proved | C89_targets with the flag to keep unused symbols, C89_default without; C89_dropped: a pointer to padding has no symbol. |
| C90 | Exactly the symbol at the entry point is marked as such | proved | C90_missing: if the symbol tables have no symbol at the entry point, no symbol is marked. |
| C91 | The mark for control-flow enforcement means that the function starts with endbr | partial | False as stated: an endbr anywhere in the function sets the mark (C91_elsewhere: the redirect is placed within an instruction). Proved: the mark is set iff there is an endbr in the relevant part of the function, never for data. |
| C92 | Trampolines are exactly the stubs for other libraries | partial | Soundness as stated (C92_sound), completeness for jumps (C92_jump) and for functions of the symbol table (C92_tables_partial). Other symbols in these tables are not marked (C92_unmarked). Functions that only consist of a tail call are trampolines, a change of their target gets lost in an update (C92_tail_call). |
| C93 | The analysis of well-formed files completes | partial | C93_file_partial: completion from conditions on the file alone (readable tables; marks, entries, calls and pointers inside of sections; sections inside of segments; relocations not cut by symbols; for the reconstruction a named entry in front of all targets). C93_completes_partial: the same with a condition on the gathered symbols, which is necessary for debug builds (C93_located). Files with names for the procedure linkage table (-a) are included. Missing: files which do not meet the conditions; some well-formed ones do not: the end of a RELRO region behind the last section of its kind aborts the analysis (C93_counterexample). |
| C94 | Symbols start where the file gives a reason for it | proved | For files whose loaded sections start at different addresses. If unused symbols are kept, the reasons are stated for the result itself (C94_only_kept), otherwise for a superset of its symbols (C94_only). Pointers are covered by C89_targets and C89_default. As in C69, instructions behind the end of a function are expected to have a symbol only if no jump in front leads to or over them. |
| C95 | Entries of the debug information inherit from their abstract origin | partial | C95_inherited_partial requires that references to origins count from the start of the section or that the unit is the first one; a reference of a later unit is taken for one of the first unit (C95_counterexample). C95_ends_partial holds without circles, which exhaust the recursion (C95_circle). C95_declared_partial covers entries with all or none of file, line and column; for others the place depends on the order of entries (C95_order). |
| C96 | Variables of the debug information are those with a fixed or thread-local place | partial | C96_static is complete for location expressions of valid operations, C96_listed for lists of entries (in terms of get_loc). C96_tls_partial describes the places taken for thread-local ones; these include constants without the operation for thread-local addresses, and the GNU name of this operation is not known (C96_counterexample). Location lists of a unit without base address make the whole list fail (C96_no_base). Locations with typed constants or an unreadable expression are not covered by the exactness theorems. Variables declared before their definition have no type of their own and are missing (C96_declared_counterexample). |
| C97 | Positions of variables do not depend on the base address | partial | C97_base holds for all files. C97_symbol_partial and C97_debug_partial give the position for arranged segments and variables that do not end exactly at the end of the protected memory (else they are said to be writable, C97_counterexample); C97_agree needs no such condition. C97_complete: all variables are listed if their sections are part of segments; a single other one makes the summary fail (C97_unmapped). Variables of equal name and offset in two segments of the same permissions: one is lost (C97_lost). C97_mismatch: the summary may fail for a sound file; C97_tls_align: alignment of thread-local variables depends on the source. C97_writable: the option for writable variables selects categories, nothing else. |
| C98 | Functions of a summary | partial | C98_exported, C98_order, C98_names, C98_base, C98_functions and C98_listed hold without further conditions. C98_declared_partial needs that no other name is exported for the address (else only the first name counts, C98_alias) and that all functions of the name have the same declaration (else the last one counts, C98_last); likewise C98_debug_order_partial. Exported functions without debug information do not count as soon as there is debug information (C98_missing); without debug information different exports can have the same hashed text (C98_ambiguous). C98_absent: when there is no hash of functions. |
| C99 | Types of a summary | partial | C99_types, C99_first and C99_text (the hashed text determines the hashes in the summary) hold without further conditions. C99_order_partial needs that types of one identifier have the same hash. This is not the case: references and volatile types have the identifier of the type they refer to, so the order makes a difference (C99_counterexample), and changes of a type can go unnoticed (C99_lost). |
| C100 | A file that was just linked to another address does not differ | partial | Holds for addresses below 2^51 (Rebasable), symbols whose data differs only at relocated places that do not overlap (Steady), and references that lead behind a symbol of their address space (Anchored). The decoder has to move along (MovesWith); with reconstruction of relocations it also has to report displacements inside the instruction (SaneDecoder), and accesses in code have to be anchored as well (CodeAnchored). Identifiers of positions are only covered without reconstruction; with it the statement is false for them (C100_positions_counterexample). Without resolved relocations the address of a resolver of an indirect function counts for the identifier (C100_counterexample), and so does an address in front of all symbols (C100_unanchored_counterexample). |
| C101 | Sizes of variables and types are those of the debug information | partial | Holds with names and aliases if arrays have bounds and are directly the type of named entries or pointers (C101_sizes_partial, C101_text_partial, C101_succeeds_partial). Behind `const` or a typedef the number of elements is multiplied twice (C101_array_counterexample); without names arrays fail an assertion, without aliases variables are missing (C101_options_counterexample). Sizes of types (C101_types_partial) hold for all options but not for arrays stored with their number of elements, as clang does; these have the same hash for all lengths (C101_count_counterexample). |
| C102 | The file that is meant is opened, and only sound files are analysed | partial | Holds without debug symbols, for roots that are not empty and paths of at most 4096 characters (C102_plain_partial, C102_refused), and if no debug file is found (C102_nothing_found_partial, if the streams accept null pointers). If one is found, its path belongs to an object that does not exist any more: undefined behaviour for all files (C102_debug_counterexample); debug symbols never contribute to a defined result (C102_only). An empty root is undefined for missing files (C102_root_counterexample). |
| C103 | Each file of a list is processed with the options in front of it | proved | C103_jobs (each file that is opened and its settings), C103_complete (no file is left out), C103_success. The level of verbosity is a byte, so 256 letters v count as none. An option with a value at the end of the command line has no value and no effect. |
| C104 | The graph marks the visible symbols and the entry point | partial | Holds for global symbols without untyped entries at the same address (C104_extern_partial) and if there is a symbol at the entry point (C104_entry_partial); the other lines stay the same (C104_plain). Weak (and unique) symbols get no edge (C104_weak_counterexample), nor do global functions behind a local label at the same address (C104_label_counterexample); an entry point without symbol is not marked (C104_entry_counterexample). |
| C105 | The listing of the symbols can be read back | partial | Lines read back: identifiers C105_read_ids, facts C105_read_rows (names without line breaks), names and sections C105_read_names_partial (names that are words not starting with a parenthesis); equal listings only for equal facts: C105_ids, C105_rows, C105_names_partial. Otherwise lines can be read in two ways (C105_names_counterexample), and a name with a line break can pose as further symbols (C105_break_counterexample). |
| C106 | The lines of references and relocations tell what they refer to | partial | References: C106_reference, C106_read_reference. Relocations with a symbol in front of the target: C106_line_partial, C106_read_partial. The names of imports are never shown (C106_import_counterexample), targets in front of all symbols look like addends (C106_target_counterexample), name and addend of relative relocations denote another address (C106_relative_counterexample), and types without name break the line (C106_break_counterexample). |
| C107 | The summary of differences is read as it was computed | partial | Text: C107_read, C107_lossless (for truth values written as words or as digits, since the library for streams is not part of the source). Verdict: C107_verdict, C107_failure. Marks of categories: C107_sections_partial, for total sizes below 2^64; beyond that the sum may be zero (C107_sections_counterexample). |
| C108 | The report about an update of code tells what would be done | partial | C108_report_partial, for the levels without disassembly, names that are single words and disjoint symbols that contain all their relocated instructions. The settings are those of the options (C108_options, C108_arguments). With blanks in names the same line stands for different targets (C108_names_counterexample). For one file and two directories with debug symbols the program prints a null pointer (C108_path_counterexample). |
| C109 | The comparison of versions asks for the differences with the requested settings | partial | C109_settings_partial (paths that do not start with a dash) , C109_calls_partial (all calls for an object) and C109_pairs. With a directory whose name starts with a dash, the files are taken for unknown options and the program fails (C109_dash_counterexample). |
| C110 | The printed differences and mappings show what was computed | partial | C110_diff_ids, C110_diff_rows, C110_map_ids_partial, C110_map_rows_partial for the levels without disassembly, names and paths without line breaks. For one file and two directories with debug symbols bean-map prints a null pointer (C110_path_counterexample). |
| C111 | Entries for imported functions carry the names of the functions | partial | C111_names_partial for entries that start with a marker for indirect branches (.plt.sec), executable sections that do not overlap, and slots with a single relocation. Entries without marker (.plt.got of files built without indirect-branch tracking) belong to the first one, which gets the name of the last function (C111_unmarked_counterexample). |
| C112 | The detailed listing tells everything about the symbols | partial | C112_read_partial for names and sections that are words, relocations to symbols, and debug texts without empty lines (and without lines that look like the following entries). An empty line in the debug text (name with two line breaks) makes the output endless (C112_loop_counterexample); a conditional branch is not shown as such (C112_conditional_counterexample); without BEAN_VERBOSE there is no line break behind the name (C112_line_counterexample). Without symbols the behaviour is undefined (C112_empty_counterexample). Attributes of the terminal are left out. |
| C113 | The dump of data shows its content | partial | C113_bytes, C113_text and C113_plain hold for all symbols that do not reach the end of the address space (names without line breaks). C113_relocations_partial: relocations of nonzero size that do not overlap, and no relocation starts at the last byte of the previous line; otherwise it is listed again (C113_twice_counterexample). After a relocation without size no relocation is mentioned any more (C113_lost_counterexample). C113_listing_partial: with C112, the detailed listing of data can be read back. The debug text is written to a buffer of 1 MiB, which is not modelled, neither are attributes of the terminal. |
| C114 | The disassembly of a function shows its code and references | partial | C114_plain holds for all functions (names are words, texts of capstone fit to the operands). C114_lines_partial and C114_bytes_partial: only the first twelve bytes of an instruction are shown (C114_long_counterexample). C114_references_partial: a reference to the address zero has no note (C114_zero_counterexample), and an operand that uses both the segment of the thread-local storage and the instruction pointer has a note for one of its two references only (C114_both_counterexample). C114_listing_partial: with C112 and C113, the detailed listing with debug texts of functions and data can be read back. Attributes of the terminal and the limit of the buffer are not modelled; the splitting of operands in dlh is assumed to be exact. |
| C115 | The script for the daemon passes on the requested settings | partial | C115_settings_partial: exact commands for all sequences of prefixes, socket and directories (words without blanks), with neither -N nor own options. C115_own_partial: own options are passed, but default options as well (C115_own_counterexample). C115_nodebug_partial, C115_without_partial: with -N as last argument or NODEBUG=1 another cache is used and -d is not passed; with own options it is (C115_nodebug_counterexample). If -N is not the last argument, the following one is lost (C115_skip_counterexample). C115_files_partial: exactly the shared objects, for names without blanks (C115_blank_counterexample). Semantics of bash (splitting of words, arrays, unset index) is part of the model; no pathname expansion. |
| C116 | Library and tools read the same build ID and debug link | partial | C116_buildid_partial: same text for all files whose notes of number 3 are GNU identifiers of 17 to 20 bytes, outside of sections with link or comment (dbgsym.py on its own: if only one section has an identifier). Otherwise it fails: other sizes (C116_size_counterexample), several sections (C116_two_counterexample), notes of other owners, also with names of other lengths (C116_owner_counterexample). C116_link_partial: same link for all files without debug sections if link and comment are ASCII (dbgsym.py: if there is one link); the tools fail for other characters (C116_ascii_counterexample). Note parsing of elftools is assumed as stated in the model. |
| C117 | The tools read the requested file, and debug symbols exactly on request | partial | C117_file_partial: the first existing path of the two; absolute names are never looked up below the base directory (C117_base_counterexample). C117_debug_partial: debug symbols iff -d, from the right place, for files within the base directory; outside of it the analysis fails for every file (C117_outside_counterexample); -D alone has no effect although documented to imply -d (C117_extern_counterexample). C117_dwarf_partial: dwarfvars.py reads the given file if it is within the base directory or there is none; otherwise another file or none (C117_dwarf_counterexample). Not modelled: downloads and their cache, an empty link, opening by argparse. |
| C118 | Cells of the comparison show the changes at every level of verbosity | partial | C118_more_partial: the text is a subsequence of the one for a higher level, if the result is empty or has a verdict; otherwise an error is shown without verbosity only (C118_error_counterexample). C118_changes_partial: exact content for the first level (results with a verdict). C118_amounts: amounts behind each category for all higher levels. Changes of symbols without size are never shown (C118_size_counterexample, for all numbers), nor hashes that only the base has although they cause the restart (C118_hash_counterexample, for all levels). Styles and layout of the table are not modelled. The verdict (C118_verdict), the hashes of debug symbols (C118_hashes) and their names (C118_names) are shown as stated at all levels. |
| C119 | The summary of the comparison tells result and settings | proved | C119_percent, C119_settings, C119_sentence, C119_calls (same sentence, same options for the program). Note C119_all_counterexample: 100% may be shown although a version cannot be updated; this is rounding as stated. The quotient of floating-point numbers is taken as exact; markup is left out. |
| C120 | Source files of declarations are named correctly | partial | C120_file_partial: the file according to the standard, for all versions, if there is a directory of compilation and all other directories are absolute or start with a dot. Other relative directories are not completed (C120_relative_counterexample); without directory of compilation the names are right if all directories are absolute and no file refers to the missing one (C120_without_partial), otherwise there is no name before version 5 (C120_directory_counterexample). C120_system_partial: recognition of system headers for plainly written absolute paths; with .. it fails in both directions (C120_dots_counterexample). Access to the line program by elftools is assumed as stated in the model. |
| C121 | Lists of the debug information tool are ordered, complete and readable | partial | C121_order: one line per variable, sorted by address, stable. C121_line_partial: lines determine the variable if names contain no blanks and parentheses (otherwise C121_name_counterexample). C121_json_counterexample: the output with the option for JSON is JSON if and only if there is no variable; C121_repr: as a representation by Python it tells all members of all variables (C121_quote: Python's representation of texts, characters outside of ASCII taken as printable). C121_types_partial: lines of types determine the list; the last hash determines the sequence of hashes if it has no collision for the two texts; it depends on the order (C121_total_counterexample). C121_globals, C121_functions_partial: lines of definitions and functions; the latter for names and results without parentheses. C121_listed: lines of the types, in order. |
| C122 | Only suitable files and debug symbols are analysed | partial | C122_assertions: exact condition for builds with assertions (files for 386, 486 and x86-64, of both classes); C122_machine: no other machine. C122_release_partial: without assertions no header is checked. False without assertions: files of other machines (or any file, if capstone cannot be initialised) have an empty result, so that each can update each other (C122_empty_counterexample). False in all builds for debug symbols of another build of the same kind of file, as neither build identifier nor checksum are compared (C122_foreign_counterexample). |
| C123 | An approved update keeps the variables of the running program | partial | C123_verdict: exact condition of approval without dependencies (and a necessary one with them) in terms of counterparts, for each mode. C123_kept: end-to-end statement for two analysed files, under the condition that the hash does not confuse the two texts in question and, if attributes are part of identifiers, that they agree. C123_init: the same for code in sections for initialisation. Not covered by approval: addresses (a variable may be moved by whole pages, C123_moved_counterexample), variables of the old version that are missing in the new one (C123_removed_counterexample), and several variables that share a counterpart (C123_shared_counterexample). |
| C124 | The tree of the comparison shows the compared objects | partial | C124_objects, C124_others: exact content of the tree, with multiplicity; C124_order: order within each directory. C124_compared_partial: all compared objects are shown, unless they or their directories are hidden; these are compared but not shown (C124_hidden_counterexample). |
| C125 | 32-bit files are analysed like 64-bit ones | partial | C125_pointers: targets of relocations within code and data. C125_references_partial: branches are followed, and what the references are. Otherwise false: data accessed by instructions is not referred to, so functions do not change with it (C125_unseen_counterexample); no result with assertions for tables of jumps if attributes are hashed (C125_plt_counterexample, all such files), for R_386_TLS_TPOFF32 (C125_tls_counterexample, all such files with small offsets) and for adjacent packed pointers (C125_packed_counterexample); targets of R_386_IRELATIVE are ignored (C125_indirect_counterexample). |
| C126 | References, names of origins and address ranges in the debug information are right | partial | C126_reference_partial: references of types and declarations that count from the start of the unit, or in the first unit; others lead to a wrong entry (C126_section_counterexample), and a type elftools has no text for makes the program fail (C126_text_counterexample). C126_name_partial: names of origins if declarations have names and no entry has both a declaration and an origin; otherwise the name (C126_both_counterexample) or even the origin with all attributes (C126_lost_counterexample) is lost. C126_inherited_partial: without such declarations naming does no harm (extends C95). C126_ranges_partial: exact for units with start address; without it the offset of the list is given (C126_ranges_counterexample). References by signature or to supplementary files are not modelled. |
| C127 | Debug symbols are downloaded only if needed and kept for later | partial | C127_asked, C127_content, C127_again and C127_distinct hold for all file systems and behaviours of the services. Otherwise false: what was received from lost connections is delivered by the next search (C127_broken_counterexample), the summary of variables fails for every downloaded file (C127_summary_counterexample), the last service is asked with an undocumented address (C127_url_counterexample). |
| C128 | The server for variables listens where it is told and can be started again | partial | C128_address_partial for all texts whose port is below 65536, C128_path for all texts with a slash, C128_again for the end by an interrupt. Otherwise false: five digits above 65535 raise an error (C128_port_counterexample), other network addresses are taken for files (C128_files_counterexample), after a client ended the server with two bytes it cannot be started again (C128_restart_counterexample). |
| C129 | Every file gets its result, and the comparison of versions uses it | partial | C129_files_partial and C129_compare_partial for files below the base directory. Otherwise false: files outside of the base directory, by default the current one, have no result (C129_outside_counterexample); hence the comparison without debug symbols ignores the variables of versions outside of the current directory (C129_compare_counterexample). One missing file prevents all results (C129_missing_counterexample), plain text has an additional empty line per file (C129_lines_counterexample). With a cache, results are the same if files with equal build identifiers are the same file (C129_cache_partial); otherwise a copy gets the result and path of the first file (C129_cache_counterexample). |
| C130 | The detailed listing names the types of relocations | partial | C130_named, C130_unnamed and C130_distinct hold for all machines and numbers. Reconstructed relocations always have numbers of x86-64: C130_reconstructed_partial for those of four bytes in 32-bit files, C130_reconstructed_counterexample for all others, which are shown with names of unrelated types or none. |
| C131 | The comparison of versions takes the versions in their order | partial | C131_numbers for all names; C131_reproducible_partial for names of texts without capital letters and numbers without leading zeros. Otherwise false: the order of names that differ only in case or leading zeros is the one of a set (C131_ties_counterexample), and candidates come after the release (C131_candidates_counterexample). The order of the package natsort is modelled as documented, for ASCII names. |
| C132 | The programs compare the two files that were asked for | partial | C132_files_partial without debug symbols (with them, see C102), for the files that are meant by names and directories. Otherwise false: with one name and two directories, a file with this name outside of them is compared with itself and the update always is reported as possible (C132_directories_counterexample); with two directories and no file the behaviour is undefined (C132_null_counterexample). |
| C133 | Summaries, updates and the table of versions agree | partial | C133_agree holds for all arguments, with or without debug symbols. C133_contents_partial: contents of the summary without debug symbols. C133_cell_partial (for given hashes) and C133_versions_partial (with the program for variables) are the table without debug symbols, for directories that do not start with a dash and paths of at most 4096 characters, if the behaviour is defined; C133_failure is for an old file that is refused. |
| C134 | The listing of differences agrees with the program for updates | partial | C134_agree without option -v for all runs with an output; C134_marks_partial for one letter v and names without line breaks; C134_files_partial for each program, without debug symbols. C134_code for the options of the program for updates of code. False for the program for mappings with one name and two directories: no defined output (C134_map_counterexample). |
| C135 | Control sequences do not change the output and are undone | partial | C135_listing_partial, C135_changes_partial, C135_map_partial for all levels, without debug text and for names without control sequences (otherwise false: C135_name_counterexample); C135_id_partial for valid identifiers. False for unknown identifiers: the control sequence at the end is malformed (C135_id_counterexample). |
| C136 | The search for debug symbols answers for each file | partial | C136_lines, C136_message, C136_exists and C136_verbose for all runs that end without exception; C136_ends says which these are. False otherwise: a file that is not below the directory ends the program, and there is no line for the files behind it (C136_outside_counterexample). |
| C137 | The form of numbers in the debug information does not matter | partial | C137_bound_partial: bounds stored as constants. C137_same_partial: whatever the forms are, if all types are found, they are those of the numbers; C137_sizes_partial: with forms taken as numbers, they are found if and only if they are for the numbers. C137_offset_partial: offsets of members as data1, data2, data4, data8 or within the abbreviation. False for offsets as udata or sdata, which are lost (C137_offset_counterexample), for sizes in other forms, where asking twice ends the program (C137_twice_counterexample), and for bounds that are computed (C137_bound_counterexample). |
| C138 | Different encodings of base types are told apart | partial | C138_language: values of languages (and of the other attributes without removed prefix) are told apart. C138_encoding_partial: so are encodings with names. False for encodings without names, of which nothing is left (C138_encoding_counterexample). |
| C139 | Patterns select versions and files by their whole names | partial | C139_text: the pattern searched for has the text of the option with marks around it. C139_complete: no described name is lost. C139_single_partial, C139_versions_partial, C139_files_partial: exact for patterns without alternatives outside of groups (names without line feed at the end). False for alternatives outside of groups (C139_alternatives_counterexample); C139_alternatives says what these fit. C139_literal: a name with backslashes before the characters with a meaning fits this name only. |
| C140 | Definitions of variables say what is constant | partial | C140_text_partial: name of the base type, number of stars and one const at the start if anything is constant, for base types with a name. The place of const is lost (C140_place_counterexample), and constants without type lose their type (C140_void_counterexample). |
| C141 | The program for debug information reads the file it is given | partial | C141_missing: nothing is read for missing files and directories. C141_reads_partial: as stated for existing files within the base directory. False for names below the base directory (C141_below_counterexample), for files outside of it (C141_outside_counterexample) and for debug files without debug information (C141_empty_counterexample). |
| C142 | The summary of the comparison names the object | partial | C142_name_partial: as stated for names without backslash in which no opening square bracket is followed by a character that starts a tag. False for others (C142_tag_counterexample): the part that looks like a tag is not shown. How the library rich treats tags is an assumption stated in the model; names with backslashes are not modelled. |
| C143 | The results of the comparison are written to the files given | partial | C143_files_partial: as stated if the option is used once. C143_others: files that are not named. C143_format: which names are for which format. False if the option is used more than once: the files of the earlier uses are emptied only (C143_again_counterexample). |
| C144 | A dump of machine code has all of its bytes | partial | C144_lines: each line is about an instruction. C144_bytes_partial: the bytes of the lines are those from the start to the first place that cannot be decoded. False if there is such a place: success is reported nevertheless (C144_success_counterexample). The decoder is arbitrary, with instructions of 1 to 15 bytes within the code; texts have no line feed. |
| C145 | Definitions of types show what the types consist of | partial | C145_text_partial: as stated for types whose members (with or without name) have types of base types, pointers and constants (texts as in C140), types with members (to any depth, with or without name), pointers to (constants of, pointers to) named types with members, pointers without type, or arrays of these. Missing: members that are functions. False for enumerations with underlying type (C145_enum_counterexample): its name follows the closing brace; and for pointers to types without name (C145_unnamed_counterexample): the members are not shown. |
