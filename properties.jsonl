{"id": "C01", "title": "TLS address translation is lossless and collision free", "statement": "For every address without flag bits, translating it into the TLS (or regular) address space and back yields the original address, the TLS test on the translated address returns exactly the requested space, and no TLS address equals a regular one.", "quantifier": "all 64-bit addresses and both address spaces", "why_tests_cant": "2^64 addresses; a test samples a handful", "anchors": ["include/bean/bean.hpp:Bean::TLS::trans_addr", "include/bean/bean.hpp:Bean::TLS::virt_addr", "include/bean/bean.hpp:Bean::TLS::is_tls"]}
{"id": "C02", "title": "TLS translation keeps the address order and sorts all TLS symbols last", "statement": "For addresses below 2^52 the order of two addresses in the same space is unchanged by translation and each TLS address is larger than each regular address, so an address-ordered symbol listing never interleaves the two spaces.", "quantifier": "all pairs of addresses below 2^52", "why_tests_cant": "pairs of 52-bit values cannot be enumerated", "anchors": ["include/bean/bean.hpp:Bean::TLS::trans_addr", "include/bean/bean.hpp:Bean::SymbolAddressComparison::compare"]}
{"id": "C03", "title": "Bean::get returns a symbol that really contains the address, and finds it whenever symbols do not overlap", "statement": "If get(address) returns a symbol, the address lies in [symbol.address, symbol.address+symbol.size). If the symbols of the Bean are disjoint and some symbol contains the address, get returns that symbol. If get returns null and symbols are disjoint, no symbol contains the address.", "quantifier": "all Beans and all addresses", "why_tests_cant": "the symbol set and the address are unbounded inputs; overlapping symbols and wrap-around occur only in rare binaries", "anchors": ["include/bean/bean.hpp:Bean::get", "include/bean/bean.hpp:Bean::find"]}
{"id": "C04", "title": "Bean::find returns the closest symbol at or below an address", "statement": "find(address) returns the symbol with the greatest address not above the argument and returns nothing exactly if all symbols start above it.", "quantifier": "all Beans and all addresses", "why_tests_cant": "unbounded inputs", "anchors": ["include/bean/bean.hpp:Bean::find"]}
{"id": "C05", "title": "A binary does not differ from itself", "statement": "diff(self) is empty for each valid comparison mode, with and without dependency tracking, and patchable(self) is true.", "quantifier": "all Beans, all four comparison modes, both dependency settings", "why_tests_cant": "must hold for every symbol set, including duplicate identifiers and cyclic dependencies", "anchors": ["src/bean.cpp:Bean::diff", "include/bean/bean.hpp:Bean::diff", "include/bean/bean.hpp:Bean::patchable"]}
{"id": "C06", "title": "Diff without dependencies reports exactly the changed symbols", "statement": "Every reported symbol is a sized symbol of this binary for which the other binary has no symbol with equal identity (ID, section attributes, number of references and relocations); every such symbol is represented in the report by a symbol of equal identity, and no two reported symbols have equal identity.", "quantifier": "all pairs of Beans", "why_tests_cant": "set-level statement over arbitrary symbol sets with arbitrary equalities between identifiers", "anchors": ["include/bean/bean.hpp:Bean::diff", "include/bean/bean.hpp:Bean::diff_extended", "include/bean/bean.hpp:Bean::Symbol::operator=="]}
{"id": "C07", "title": "Size-zero markers are never reported as changed", "statement": "No symbol in the result of diff, in any mode, with or without dependencies, has size 0.", "quantifier": "all pairs of Beans, modes and dependency settings", "why_tests_cant": "quantifies over all symbol sets and dependency graphs", "anchors": ["include/bean/bean.hpp:Bean::diff", "include/bean/bean.hpp:Bean::dependencies"]}
{"id": "C08", "title": "Dependency tracking terminates on every dependency graph", "statement": "diff with dependencies terminates for each dependency graph, including cyclic and self-referencing ones, and the recursion depth never exceeds the number of symbols plus one.", "quantifier": "all Beans and all (also malformed) dependency graphs", "why_tests_cant": "termination over all graphs is not testable", "anchors": ["include/bean/bean.hpp:Bean::dependencies", "include/bean/bean.hpp:Bean::diff"]}
{"id": "C09", "title": "Dependency tracking reports only symbols that depend on a change", "statement": "Every symbol reported by diff with dependencies is either changed itself or is an executable, sized symbol that is connected to a changed symbol by a chain of dependency entries whose intermediate symbols are executable and sized.", "quantifier": "all pairs of Beans and all dependency graphs", "why_tests_cant": "reachability over arbitrary graphs", "anchors": ["include/bean/bean.hpp:Bean::dependencies", "include/bean/bean.hpp:Bean::diff"]}
{"id": "C10", "title": "Dependency tracking reports all executable dependents of a change", "statement": "If a symbol is changed, all executable sized symbols which depend on it directly or transitively (through executable sized symbols) are represented in the result of diff with dependencies.", "quantifier": "all pairs of Beans and all dependency graphs", "why_tests_cant": "reachability over arbitrary graphs; fails only if two changed symbols happen to have equal identity, which tests do not contain by chance", "anchors": ["include/bean/bean.hpp:Bean::dependencies", "include/bean/bean.hpp:Bean::diff"]}
{"id": "C11", "title": "Mode 'writeable internal' drops exactly the writeable symbols with a known internal ID", "statement": "diff in mode COMPARE_WRITEABLE_INTERNAL contains a symbol iff it is in the COMPARE_EXTENDED result and it is not writeable or no symbol of the other binary has the same internal ID and section attributes.", "quantifier": "all pairs of Beans, both dependency settings", "why_tests_cant": "arbitrary symbol sets", "anchors": ["src/bean.cpp:Bean::diff"]}
{"id": "C12", "title": "Mode 'executable extended' drops exactly the non-executable symbols with a known internal ID", "statement": "diff in mode COMPARE_EXECUTABLE_EXTENDED contains a symbol iff it is in the COMPARE_EXTENDED result and it is executable or no symbol of the other binary has the same internal ID and section attributes.", "quantifier": "all pairs of Beans, both dependency settings", "why_tests_cant": "arbitrary symbol sets", "anchors": ["src/bean.cpp:Bean::diff"]}
{"id": "C13", "title": "Weaker comparison modes never turn a patchable pair into an unpatchable one", "statement": "Without dependency tracking: if patchable(other) holds in mode COMPARE_EXTENDED it holds in each of the other three modes, and the result sets of the two mixed modes are subsets of the COMPARE_EXTENDED result.", "quantifier": "all pairs of Beans", "why_tests_cant": "relates results of several runs over all inputs", "anchors": ["src/bean.cpp:Bean::diff", "include/bean/bean.hpp:Bean::patchable"]}
{"id": "C14", "title": "The patchable verdict is exactly the documented criterion", "statement": "patchable(list) is true iff no symbol in the list is in a writeable section that is neither RELRO, EH_FRAME nor DYNAMIC, and none is in an INIT section.", "quantifier": "all symbol lists of any container type", "why_tests_cant": "2^16 flag words times unbounded lists", "anchors": ["include/bean/bean.hpp:Bean::patchable"]}
{"id": "C15", "title": "The patchable verdict does not depend on order or duplicates and is monotone", "statement": "patchable gives the same answer for two lists with the same members, and removing symbols from a patchable list keeps it patchable; a union is patchable iff both parts are.", "quantifier": "all pairs of symbol lists", "why_tests_cant": "all permutations and multiplicities", "anchors": ["include/bean/bean.hpp:Bean::patchable"]}
{"id": "C16", "title": "Diff results do not depend on the hash function of the containers", "statement": "For every 32-bit hash function used for bucket selection the two hash sets find an element iff an element of equal identity was inserted; hence diff is the same for all hash functions.", "quantifier": "all hash functions, all symbol sets", "why_tests_cant": "quantifies over functions", "anchors": ["include/bean/bean.hpp:Bean::SymbolIdentifierComparison", "include/bean/bean.hpp:Bean::SymbolInternalIdentifierComparison", "include/bean/bean.hpp:Bean::diff"]}
{"id": "C17", "title": "An invalid comparison mode never yields a positive verdict", "statement": "Requesting a comparison mode outside the four defined ones (for example by passing -i four times) must not classify two different binaries as patchable.", "quantifier": "all mode values and all pairs of Beans", "why_tests_cant": "depends on the build type (assertions disabled) and on an out-of-range value", "anchors": ["src/bean.cpp:Bean::diff", "examples/update.cpp:main"]}
{"id": "C18", "title": "Mapped addresses lie in symbols with equal section attributes and compatible type", "statement": "For each pair (from,to) in the result of map, there is a closest symbol at or below from in this binary and at or below to in the other one, both have equal section attributes, and their types are equal unless one is unknown.", "quantifier": "all pairs of Beans, with and without names", "why_tests_cant": "invariant over a sequence of insertions from six phases", "anchors": ["src/bean.cpp:Bean::map"]}
{"id": "C19", "title": "Ambiguous source addresses are not mapped and unambiguous ones survive the cleanup", "statement": "If during matching two different targets are proposed for one source address, the result of map contains no entry for this source address; every source address with only one proposed target keeps its entry.", "quantifier": "all pairs of Beans", "why_tests_cant": "needs a particular coincidence of addresses in both binaries", "anchors": ["src/bean.cpp:Bean::map"]}
{"id": "C20", "title": "Mapping a binary onto itself is the identity", "statement": "map(self) without names maps each symbol address to itself and contains no non-identity entry, if no two symbols have equal identity and no two writeable symbols share section and offset.", "quantifier": "all Beans with pairwise distinct identities", "why_tests_cant": "invariant over all phases and all relocation lists", "anchors": ["src/bean.cpp:Bean::map"]}
{"id": "C21", "title": "Every mapped pair has a reason", "statement": "Each pair in the result of map is justified: the two entry points, two writeable variables with equal section name, section offset, page offset and size, two equally named symbols with equal type, bind and section, two symbols of equal identity, corresponding relocation targets of two symbols with equal internal ID and section, or the same offset in two mapped functions whose code up to the offset has the same hash.", "quantifier": "all pairs of Beans, with and without names", "why_tests_cant": "soundness over all phases and inputs", "anchors": ["src/bean.cpp:Bean::map"]}
{"id": "C22", "title": "Update never redirects trampolines or data and only to the start of a mapped symbol", "statement": "A full function redirect is requested only for executable function symbols of the old binary that are not trampolines and have a mapping; its target is the start of a symbol of the new binary plus its base.", "quantifier": "all pairs of Beans, all flag words, all callback behaviours", "why_tests_cant": "callbacks may answer arbitrarily; unbounded symbol sets", "anchors": ["include/bean/update.hpp:BeanUpdate::process"]}
{"id": "C23", "title": "A full redirect stays inside the old function and before its first relocated instruction", "statement": "The byte range given to a full function redirect starts after the leading endbr (if any), ends within the symbol and does not reach the first relocated instruction.", "quantifier": "all symbols and relocation lists with relocation offsets inside the symbol", "why_tests_cant": "unsigned wrap-around for unusual offsets", "anchors": ["include/bean/update.hpp:BeanUpdate::process"]}
{"id": "C24", "title": "Update filter flags are respected", "statement": "With FLAG_ONLY_EXECUTABLE no relocation is changed towards a non-executable symbol, with FLAG_ONLY_BRANCH_RELS no non-branch relocation is changed, with FLAG_INCLUDE_TRAMPOLINES unset no event at all is caused by an executable trampoline.", "quantifier": "all pairs of Beans, all flag words, all callback behaviours", "why_tests_cant": "combination of flags, symbols and callback answers", "anchors": ["include/bean/update.hpp:BeanUpdate::process"]}
{"id": "C25", "title": "Each relocation is processed at most once and relocated only with a mapping", "statement": "For each relocation of a processed symbol RELOCATE is called at most once, with the mapped address of its target and the new symbol containing it; if RELOCATE accepts, no redirect and no skip message is issued for that relocation; a relocation without mapping causes exactly the message 'no target found'.", "quantifier": "all pairs of Beans, all flag words, all callback behaviours", "why_tests_cant": "all callback answer sequences", "anchors": ["include/bean/update.hpp:BeanUpdate::process"]}
{"id": "C26", "title": "Update is equivariant under the load addresses", "statement": "Changing the load bases of the two binaries shifts the addresses in all callback events by the difference and changes nothing else (given the same callback answers).", "quantifier": "all bases, Beans, flags and callbacks", "why_tests_cant": "relates two runs for all bases including wrap-around", "anchors": ["include/bean/update.hpp:BeanUpdate::process"]}
{"id": "C27", "title": "Importing symbols keeps the symbol list strictly ordered and never loses or shrinks a symbol", "statement": "For every sequence of symbol insertions in any order the symbol set has unique addresses, each inserted address is present, an address once present stays present, sizes never decrease (as long as the ranges stay below the end of the address space) and the binding never gets weaker.", "quantifier": "all insertion sequences", "why_tests_cant": "histories of arbitrary length and order", "anchors": ["src/analyze.hpp:Analyze::insert_symbol"]}
{"id": "C28", "title": "A typed symbol replaces an untyped one at the same address", "statement": "Inserting an object or function symbol at an address holding an untyped (NOTYPE) symbol makes type, size and section information of the typed one visible.", "quantifier": "all symbol sets and insertions", "why_tests_cant": "order of symbol table entries decides", "anchors": ["src/analyze.hpp:Analyze::insert_symbol"]}
{"id": "C29", "title": "Symbol attributes follow the section, independent of the symbol table order", "statement": "After reading a symbol table, a symbol defined in an executable section is treated as executable, regardless of the order of entries.", "quantifier": "all symbol tables and orders", "why_tests_cant": "order of symbol table entries decides", "anchors": ["src/analyze.hpp:Analyze::insert_symbol", "src/analyze.hpp:Analyze::read"]}
{"id": "C30", "title": "Reading the symbol table imports each defined symbol", "statement": "After reading a symbol table each defined non-TLS symbol with non-zero value in an allocated section is present at its (translated) address with at least its declared size unless an earlier untyped or typed symbol at this address takes precedence, and undefined, absolute and common entries add nothing.", "quantifier": "all symbol tables", "why_tests_cant": "arbitrary tables", "anchors": ["src/analyze.hpp:Analyze::read"]}
{"id": "C31", "title": "Section flags are given to exactly the symbols inside the flagged region", "statement": "A symbol gets a section flag iff it lies completely in one of the regions announced for that flag by segments, sections or dynamic entries.", "quantifier": "all region lists and symbol sets", "why_tests_cant": "boundary cases at region ends", "anchors": ["src/analyze.hpp:Analyze::add_flags", "src/analyze.hpp:Analyze::read"]}
{"id": "C32", "title": "Symbols cover the section without gaps", "statement": "After sizing, each symbol is at least as large as declared and reaches to the next symbol or the aligned end of its section, so each address between the first symbol of a section and the section end is covered by a symbol.", "quantifier": "all symbol sets and section layouts", "why_tests_cant": "arbitrary layouts", "anchors": ["src/analyze_x86.hpp:AnalyzeX86::hash_internal"]}
{"id": "C33", "title": "The internal ID of a function does not depend on its address", "statement": "If code is moved by any distance, with all branch and RIP-relative targets moving along or targets outside the function changing arbitrarily, the internal ID stays the same and in the first case references move by the same distance.", "quantifier": "all instruction sequences, all distances", "why_tests_cant": "programs and distances are unbounded", "anchors": ["src/analyze_x86.hpp:AnalyzeX86::hash_internal"]}
{"id": "C34", "title": "NOPs and trailing padding do not influence the internal ID", "statement": "Instruction sequences which differ only in NOP instructions that do not change in-function targets and immediate operands have the same internal ID; after a leaving instruction an all-zero rest is ignored.", "quantifier": "all instruction sequences", "why_tests_cant": "unbounded sequences", "anchors": ["src/analyze_x86.hpp:AnalyzeX86::hash_internal"]}
{"id": "C35", "title": "Each out-of-function target becomes a reference and nothing else does", "statement": "The references collected for a function are exactly the branch targets and RIP-relative targets outside its bounds, the thread-local accesses, the following symbol in case of fall-through, and the targets of resolved relocations.", "quantifier": "all instruction sequences", "why_tests_cant": "unbounded sequences", "anchors": ["src/analyze_x86.hpp:AnalyzeX86::hash_internal"]}
{"id": "C36", "title": "Instructions with different effect contribute differently to the internal ID", "statement": "If two functions differ in an operand size or prefix of one instruction their internal hash inputs differ.", "quantifier": "all pairs of instructions", "why_tests_cant": "depends on the position of prefixes in the decoder output; a test would need to pick the right encodings", "anchors": ["src/analyze_x86.hpp:AnalyzeX86::hash_internal"]}
{"id": "C37", "title": "The internal ID of data is its content with relocated bytes masked", "statement": "The hashed content of an initialised data symbol is its byte content with the bytes covered by relocations replaced by zero (GOT: first two entries left out); two data symbols with the same ID input have the same content outside of relocations and vice versa.", "quantifier": "all contents and all sorted non-overlapping relocation lists", "why_tests_cant": "unbounded contents and relocation lists", "anchors": ["src/analyze_x86.hpp:AnalyzeX86::hash_internal"]}
{"id": "C38", "title": "Moving data by whole pages keeps its internal ID, moving writeable data otherwise changes the hash input", "statement": "Internal hash input of writeable non-RELRO data changes iff its page offset or masked content changes; for other data it does not depend on the address.", "quantifier": "all contents and addresses", "why_tests_cant": "all addresses", "anchors": ["src/analyze_x86.hpp:AnalyzeX86::hash_internal"]}
{"id": "C39", "title": "Zero-initialised data is identified by its size only", "statement": "The hash input of a .bss symbol is size many zero bytes (after the page offset); a symbol that is backed by file content is not treated as zero-initialised.", "quantifier": "all segment layouts", "why_tests_cant": "depends on relation of file offsets and addresses of all segments", "anchors": ["src/analyze_x86.hpp:AnalyzeX86::hash_internal", "include/bean/bean.hpp:Bean::SymbolAddressComparison::compare"]}
{"id": "C40", "title": "The external ID is determined by relocations and referenced symbols", "statement": "Two symbols whose relocations agree relative to the symbol start and whose references resolve to symbols with the same (internal ID, type, offset), respectively same name and type for global ones, have the same external ID, wherever they are located.", "quantifier": "all symbol sets and reference lists", "why_tests_cant": "unbounded reference lists", "anchors": ["src/analyze.hpp:Analyze::hash_external"]}
{"id": "C41", "title": "Dependencies are the inverse of references", "statement": "After analysis a symbol A is in the dependency set of B iff A references an address whose closest lower symbol is B, in the same address space, B is not global and the reference is not one of the special GOT cases.", "quantifier": "all symbol sets and reference lists", "why_tests_cant": "set-level statement over all graphs", "anchors": ["src/analyze.hpp:Analyze::hash_external"]}
{"id": "C42", "title": "Only unreferencing, unnamed, content-free symbols are dropped", "statement": "Analysis removes a symbol only if it is in an executable section without any non-NOP instruction, unnamed and without references and relocations; with FLAG_KEEP_UNUSED_SYMBOLS nothing is removed.", "quantifier": "all symbol sets, all flag words", "why_tests_cant": "arbitrary inputs", "anchors": ["src/analyze_x86.hpp:AnalyzeX86::hash_internal"]}
{"id": "C43", "title": "Reconstructed relocations reproduce the original displacement", "statement": "For each PC-relative operand the reconstructed relocation, applied according to the ABI (S + A - P), yields the displacement encoded in the instruction; its symbol and addend resolve to the original target.", "quantifier": "all instructions, targets and symbol sets", "why_tests_cant": "64-bit arithmetic with wrap-around", "anchors": ["src/analyze_x86.hpp:AnalyzeX86::create_relocation", "src/analyze_x86.hpp:AnalyzeX86::reconstruct_relocations"]}
{"id": "C44", "title": "Reconstructed relocations point back to their instruction", "statement": "For a reconstructed relocation, offset minus instruction_offset is the start of the instruction, for all operand positions an instruction can have.", "quantifier": "all instructions", "why_tests_cant": "bit-field truncation at 16", "anchors": ["src/analyze_x86.hpp:AnalyzeX86::create_relocation", "include/bean/bean.hpp:Bean::SymbolRelocation"]}
{"id": "C45", "title": "Existing relocations get access information by reconstruction", "statement": "If a relocation at the operand location is already known, reconstruction keeps it and annotates it with instruction offset and access; no relocation at a different location is modified.", "quantifier": "all relocation sets", "why_tests_cant": "needs a coincidence of target and relocation addresses", "anchors": ["src/analyze_x86.hpp:AnalyzeX86::create_relocation"]}
{"id": "C46", "title": "Each relocation target inside a function gets an offset ID", "statement": "After hash_function_offsets each relocation target that lies strictly inside an executable symbol on or before its last non-NOP instruction has an offset ID in that symbol.", "quantifier": "all target sets and symbol sets", "why_tests_cant": "depends on the neighbourhood of targets in several symbols", "anchors": ["src/analyze_x86.hpp:AnalyzeX86::hash_function_offsets"]}
{"id": "C47", "title": "Relocation records are fully determined by their input", "statement": "The result of map and update does not depend on uninitialised memory: access flags and instruction offset of relocations read from the file have defined values.", "quantifier": "all ELF relocations", "why_tests_cant": "reads of indeterminate values behave differently from run to run", "anchors": ["src/bean.cpp:Bean::SymbolRelocation::SymbolRelocation", "include/bean/update.hpp:BeanUpdate::process"]}
{"id": "C48", "title": "Build IDs are rendered losslessly", "statement": "The textual build ID is the lowercase hexadecimal form of the note content; two different build IDs of up to 20 bytes give different texts; the text is always terminated within its 41-byte buffer.", "quantifier": "all note contents", "why_tests_cant": "all byte strings", "anchors": ["src/build_id.cpp:BuildID::BuildID"]}
{"id": "C49", "title": "Debug file lookup returns the first existing candidate in the documented order", "statement": "find returns a path iff one of the candidates (debug link in the directory of the binary, its .debug subdirectory, below the global debug directory, build ID file) exists, and it returns the first one in that order.", "quantifier": "all file system contents, names and search roots", "why_tests_cant": "all file systems", "anchors": ["src/debug_sym.cpp:DebugSymbol::find"]}
{"id": "C50", "title": "C++ and Python debug file lookup agree on the global debug directory", "statement": "A debug link file stored below the global debug directory in the directory of the binary is found.", "quantifier": "all directories and link names", "why_tests_cant": "path construction for all names", "anchors": ["src/debug_sym.cpp:DebugSymbol::find", "tools/dbgsym.py:debug_symbol_paths"]}
{"id": "C51", "title": "The diff tool prints each changed symbol once, in address order", "statement": "The merged listing of bean-diff contains every removed and every added symbol exactly once and is sorted by address.", "quantifier": "all pairs of symbol trees", "why_tests_cant": "all interleavings of two sorted lists", "anchors": ["examples/diff.cpp:main"]}
{"id": "C52", "title": "DOT identifiers are valid", "statement": "The graph name produced for any path consists only of letters, digits and underscores, without adjacent underscores.", "quantifier": "all strings", "why_tests_cant": "all strings", "anchors": ["examples/graph.cpp:normalize"]}
{"id": "C53", "title": "DOT clusters are balanced", "statement": "For every symbol sequence with named sections the subgraph braces in the graph output are balanced and each symbol is printed inside the cluster of its section.", "quantifier": "all symbol sequences", "why_tests_cant": "all sequences", "anchors": ["examples/graph.cpp:main"]}
{"id": "C54", "title": "diffstat counts are consistent", "statement": "For each category the changed count and size never exceed the totals, and the categories text, rodata, data, bss, tdata and tbss are disjoint for symbols that are not both writeable and executable.", "quantifier": "all symbol sets", "why_tests_cant": "all flag combinations and sets", "anchors": ["examples/diffstat.cpp:main"]}
{"id": "C55", "title": "Variable summary hashes do not depend on the order of input", "statement": "The category hashes computed by elfvars are the same for each order in which the symbols are listed.", "quantifier": "all permutations of symbol lists", "why_tests_cant": "factorially many orders", "anchors": ["tools/elfvars.py:sortuniq_symbols", "tools/elfvars.py:compare_symbols"]}
{"id": "C56", "title": "Duplicate elimination keeps one entry per distinct symbol", "statement": "sortuniq_symbols returns a sorted list without duplicates that contains each distinct (category, value, name) of the input.", "quantifier": "all symbol lists", "why_tests_cant": "all lists", "anchors": ["tools/elfvars.py:sortuniq_symbols"]}
{"id": "C57", "title": "The result cache never returns data of another request", "statement": "A cached answer of the elfvars daemon equals the answer that would be computed for this request.", "quantifier": "all request histories", "why_tests_cant": "needs particular histories", "anchors": ["tools/elfvars.py:get_cache_key", "tools/elfvars.py:get_data"]}
{"id": "C58", "title": "Daemon answers do not depend on how the request stream is split", "statement": "For each way the network splits the byte stream of a client into chunks and for each way the kernel accepts the output, the daemon answers the same requests in the same order with the same bytes.", "quantifier": "all chunkings and partial writes", "why_tests_cant": "all schedules", "anchors": ["tools/elfvars.py:listen_socket"]}
{"id": "C59", "title": "A client cannot terminate the daemon", "statement": "No sequence of client bytes, half-closes and connection events ends the daemon's main loop.", "quantifier": "all client behaviours", "why_tests_cant": "adversarial event sequences", "anchors": ["tools/elfvars.py:listen_socket"]}
{"id": "C60", "title": "The comparison table only considers objects present in all versions", "statement": "compare.py selects exactly the object names available in each version directory.", "quantifier": "all directory contents", "why_tests_cant": "arbitrary directory listings", "anchors": ["tools/compare.py"]}
{"id": "C61", "title": "Unchanged symbols are mapped", "statement": "Each symbol of the old version whose identity also occurs in the new version, with compatible type, appears in the mapping, unless its address equals an ambiguous target.", "quantifier": "all pairs of symbol trees", "why_tests_cant": "all pairs", "anchors": ["src/bean.cpp:Bean::map"]}
{"id": "C62", "title": "The update process does not abort", "statement": "If the mapping can be computed and each function with a leading endbr is larger than it, the update process runs to its end for every callback behaviour.", "quantifier": "all pairs of symbol trees, flags, callback behaviours", "why_tests_cant": "all histories", "anchors": ["include/bean/update.hpp:BeanUpdate::process"]}
{"id": "C63", "title": "Relocations are changed only in unchanged code", "statement": "The update process changes a relocation only to the mapped address of its target, and only if the surrounding symbol has a counterpart with the same internal identity or, for branches inside of a function, the code at the branch target or at the branch has the same offset identity; skip messages give the true reason.", "quantifier": "all pairs of symbol trees, flags, callback behaviours", "why_tests_cant": "all histories", "anchors": ["include/bean/update.hpp:BeanUpdate::process"]}
{"id": "C64", "title": "A redirect at an instruction does not change conditional control flow", "statement": "The update requests a redirect from an instruction to the mapped target of its relocation only if the instruction is an unconditional branch; for a conditional branch the redirect leads to the same branch in the new version.", "quantifier": "all pairs of binaries, flag words and callback answers", "why_tests_cant": "depends on the history of refused relocations", "anchors": ["include/bean/update.hpp:BeanUpdate::process"]}
{"id": "C65", "title": "A symbol carries exactly the relocations in its range", "statement": "After the analysis, code and initialised data carry exactly the relocations of the file (regular and packed relative ones) whose location is in the range of the symbol, each with type, addend and symbol name of the file, besides those known before; zero-initialised data gets none.", "quantifier": "all files, all layouts of symbols and relocations", "why_tests_cant": "unbounded number of relocations and symbols, address translation of thread-local symbols", "anchors": ["src/analyze_x86.hpp:AnalyzeX86::add_relocations", "src/analyze_x86.hpp:AnalyzeX86::hash_internal"]}
{"id": "C66", "title": "Reconstructed relocations of thread-local operands reproduce the distance", "statement": "For each operand relative to the segment register FS the reconstructed relocation names the thread-local variable, and applied according to the ABI (symbol + addend - thread pointer) it yields the distance encoded in the instruction.", "quantifier": "all instructions, symbol sets and thread-local segments", "why_tests_cant": "64-bit arithmetic, tagged addresses", "anchors": ["src/analyze_x86.hpp:AnalyzeX86::create_relocation", "src/analyze_x86.hpp:AnalyzeX86::reconstruct_relocations"]}
{"id": "C67", "title": "Access flags of reconstructed relocations describe the operand", "statement": "The flags read, write, branch, conditional and local of a reconstructed relocation are set exactly if the operand is read, is written, is the target of a branch, of a conditional branch, or lies inside of the function.", "quantifier": "all instructions and functions", "why_tests_cant": "combination of all operand kinds and positions", "anchors": ["src/analyze_x86.hpp:AnalyzeX86::create_relocation", "src/analyze_x86.hpp:AnalyzeX86::reconstruct_relocations"]}
{"id": "C68", "title": "Offset identifiers do not depend on the location of the code", "statement": "In two functions with the same instructions up to their location and with the same references (imports of the same name, same position in the function, same distance from symbols of equal identity), positions with the same distance from the start have equal offset identifiers.", "quantifier": "all pairs of files, all functions and positions", "why_tests_cant": "all locations and distances", "anchors": ["src/analyze_x86.hpp:AnalyzeX86::hash_function_offsets"]}
{"id": "C69", "title": "Function discovery finds all starts and nothing else", "statement": "Besides the known symbols, the analysis reports a symbol at the start of each section, at the target of each direct call into an executable section, at each ENDBR that follows the end of some code (return, jump, halt; NOPs ignored), and at further instructions that follow the end of some code if no jump leads to or over them; it adds no symbol without such a reason.", "quantifier": "all files, all instruction sequences of any length", "why_tests_cant": "unbounded instruction sequences, state carried along the section", "anchors": ["src/analyze_x86.hpp:AnalyzeX86::find_additional_functions", "src/analyze.hpp:Analyze::insert_symbol"]}
{"id": "C70", "title": "Discovered functions lie within a section", "statement": "Each symbol added by the search for functions lies within the bounds of an executable section or at the start of a section.", "quantifier": "all files, all instruction sequences", "why_tests_cant": "targets of calls are arbitrary 64-bit addresses, gaps between sections", "anchors": ["src/analyze_x86.hpp:AnalyzeX86::find_additional_functions"]}
{"id": "C71", "title": "Function discovery does not abort on ordinary files", "statement": "If executable sections are neither writeable nor thread-local and addresses of code do not carry the mark of thread-local addresses, the search for functions succeeds without failing assertion or undefined behaviour.", "quantifier": "all files with this property, all symbol tables", "why_tests_cant": "assertions depend on combinations of symbols and sections", "anchors": ["src/analyze_x86.hpp:AnalyzeX86::find_additional_functions", "src/analyze.hpp:Analyze::insert_symbol"]}
{"id": "C72", "title": "The result of the analysis is well-formed", "statement": "For every file, flags and debug symbols: if the analysis succeeds, the symbols are strictly ordered by address, the relocations of each symbol are strictly ordered by location, each dependency is the address of a symbol of the result, and the dependencies are exactly the inverse of the references. If unused symbols are kept, the symbols cover each address of each loaded section.", "quantifier": "all files, flags and debug symbols", "why_tests_cant": "the whole pipeline on arbitrary files", "anchors": ["src/analyze.hpp:Analyze::run", "src/bean.cpp:analyze"]}
{"id": "C73", "title": "Declared symbols survive the analysis", "statement": "Each symbol defined in a symbol table of the file or of its debug symbols is part of the result, at its address, with at least its size and with its name, unless another name is declared for this address.", "quantifier": "all files, flags and debug symbols", "why_tests_cant": "interaction of all phases, order and multiplicity of table entries", "anchors": ["src/analyze.hpp:Analyze::run", "src/analyze.hpp:Analyze::read", "src/analyze.hpp:Analyze::insert_symbol"]}
{"id": "C74", "title": "Debug symbols are looked for in the directory of the binary", "statement": "For each binary and root directory the search for debug symbols starts in the directory of the binary.", "quantifier": "all paths and root directories", "why_tests_cant": "all combinations of paths", "anchors": ["src/debug_sym.cpp:DebugSymbol::DebugSymbol"]}
{"id": "C75", "title": "Command line options select the documented settings", "statement": "Each example program uses the settings of its options independent of their order: each switch is set iff its option is given, -i, -ii and -iii select the comparison modes 1 to 3, other uses are refused; the first two other arguments are the files, the first two values of -b the directories.", "quantifier": "all argument lists, all programs", "why_tests_cant": "all orders and repetitions of options", "anchors": ["examples/update.cpp", "examples/diff.cpp", "examples/diffstat.cpp", "examples/map.cpp", "examples/update-code.cpp"]}
{"id": "C76", "title": "The graph has an edge for each reference between symbols", "statement": "The output of bean-graph has an edge between two symbols iff the first one has a reference to an address whose nearest preceding symbol is the second one (both thread-local or both not), and both ends of each edge are declared as nodes.", "quantifier": "all sets of symbols", "why_tests_cant": "all reference graphs", "anchors": ["examples/graph.cpp"]}
{"id": "C77", "title": "Printing of the debug text terminates", "statement": "Printing a symbol with debug text ends, and prints each line of the text once.", "quantifier": "all debug texts, thus all symbol names", "why_tests_cant": "arbitrary bytes in symbol names", "anchors": ["src/dump.cpp"]}
{"id": "C78", "title": "The option to ignore symbol names does so", "statement": "bean-map and bean-update-code use symbol names unless the option -n is given.", "quantifier": "all argument lists", "why_tests_cant": "combination of options", "anchors": ["examples/map.cpp", "examples/update-code.cpp"]}
{"id": "C79", "title": "Printing never fails", "statement": "Printing a result of the analysis, or one of its symbols, succeeds at each verbosity and prints all symbols in order.", "quantifier": "all results of the analysis, all verbosities", "why_tests_cant": "degenerate files", "anchors": ["src/dump.cpp"]}
{"id": "C80", "title": "Symbol table and debug information are combined without loss", "statement": "If the summary of the variables succeeds, each entry of symbol table and debug information appears in it, matching entries appear once and carry the type of the debug information, and the combination never fails an assertion.", "quantifier": "all pairs of lists of variables", "why_tests_cant": "all interleavings of the two lists", "anchors": ["tools/elfvars.py:ElfVar.summary"]}
{"id": "C81", "title": "Equal category hashes mean equal layout", "statement": "The text that is hashed for a category of variables determines the type, offset, alignment and size of each of them.", "quantifier": "all lists of variables", "why_tests_cant": "the hashed text could be ambiguous", "anchors": ["tools/elfvars.py:ElfVar.summary"]}
{"id": "C82", "title": "Each request line is answered by exactly one line", "statement": "With plain output a client gets exactly one line for each line it sends, for each way to end lines.", "quantifier": "all request streams", "why_tests_cant": "line endings and results", "anchors": ["tools/elfvars.py:simplify", "tools/elfvars.py:listen_socket"]}
{"id": "C83", "title": "An update is only offered for equal variables", "statement": "compare.py shows 'update' for a pair of versions only if the diff tool allows it and the hashes of the variables of both versions are equal.", "quantifier": "all results of the tools", "why_tests_cant": "all combinations of failing tools", "anchors": ["tools/compare.py:build_cell"]}
{"id": "C84", "title": "The summary counts updates between consecutive versions", "statement": "For each list of versions compare.py reports the number of updates from a version to the next one, at most the number of versions minus one and the same with and without matrix.", "quantifier": "all lists of versions, all results of the tools", "why_tests_cant": "all lists", "anchors": ["tools/compare.py"]}
{"id": "C85", "title": "Types of variables do not depend on the order of requests", "statement": "Identifier, size and hash of a type are the same whichever types were determined before, in whichever order, and stored results never make a request fail.", "quantifier": "all debug information, all sequences of requests", "why_tests_cant": "all orders and all graphs of types", "anchors": ["tools/dwarfvars.py:DwarfVars.get_type"]}
{"id": "C86", "title": "The search for a type ends", "statement": "For the debug information of each program the type of a variable is found with a depth of recursion bounded by the nesting of its types.", "quantifier": "all debug information", "why_tests_cant": "recursive types of any form", "anchors": ["tools/dwarfvars.py:DwarfVars.get_type"]}
{"id": "C87", "title": "Types of equal hash have equal layout", "statement": "Two types have the same hash only if they have the same layout: kind, members with offsets and types, sizes, bounds and encoding. Aliases make no difference.", "quantifier": "all debug information of two versions", "why_tests_cant": "all pairs of types", "anchors": ["tools/dwarfvars.py:DwarfVars.get_type"]}
{"id": "C88", "title": "The same code and data is recognised in another file", "statement": "If two analysed files contain functions with the same bytes (wherever they are), with the same relocations relative to the function and with references that lead to the same things, then the complete identifiers (internal and external) of these functions are equal; likewise for data that is equal up to relocated bytes.", "quantifier": "all pairs of files, debug symbols and flags for which the analysis succeeds", "why_tests_cant": "depends on the interplay of all steps of the analysis for arbitrary files", "anchors": ["src/analyze.hpp", "src/analyze_x86.hpp", "src/bean.cpp:16-38"]}
{"id": "C89", "title": "Pointers lead to symbols", "statement": "Each pointer that is relocated with the base address (named by a relocation or stored at the location of a packed relocation) leads to the start of a symbol in the result of the analysis. Without the flag to keep unused symbols only targets are left out at which there is nothing but NOPs.", "quantifier": "all files, debug symbols and flags for which the analysis succeeds, all relative relocations", "why_tests_cant": "arbitrary relocations in arbitrary files", "anchors": ["src/analyze_x86.hpp:read", "src/analyze.hpp:insert_symbol"]}
{"id": "C90", "title": "Exactly the symbol at the entry point is marked as such", "statement": "In each result of the analysis a symbol is marked as entry iff it is at the entry point of the file.", "quantifier": "all files, debug symbols and flags for which the analysis succeeds", "why_tests_cant": "marks could be lost or copied by later steps for particular files", "anchors": ["src/analyze.hpp:add_flags", "include/bean/bean.hpp:161-166"]}
{"id": "C91", "title": "The mark for control-flow enforcement means that the function starts with endbr", "statement": "A function in the result of the analysis is marked for control-flow enforcement iff its first instruction is an endbr, so that a redirect behind four bytes is at the start of an instruction. Data is never marked.", "quantifier": "all files, debug symbols and flags for which the analysis succeeds", "why_tests_cant": "arbitrary code", "anchors": ["src/analyze_x86.hpp:495-531", "include/bean/update.hpp:48-50"]}
{"id": "C92", "title": "Trampolines are exactly the stubs for other libraries", "statement": "A symbol is marked as trampoline iff it is in the tables for functions of other libraries (.got, executable .plt*) or consists of a single jump out of it. No function with own behaviour is kept out of an update.", "quantifier": "all files, debug symbols and flags for which the analysis succeeds", "why_tests_cant": "arbitrary code and sections", "anchors": ["src/analyze.hpp:add_flags", "src/analyze_x86.hpp:675-677", "include/bean/update.hpp:36-45"]}
{"id": "C93", "title": "The analysis of well-formed files completes", "statement": "For each file whose tables are consistent (sections named by symbols exist, symbols with a size lie in their section, pointers lead into sections) the analysis neither fails an assertion nor runs into undefined behaviour but delivers a result.", "quantifier": "all well-formed files, debug symbols and flags", "why_tests_cant": "aborts depend on the arrangement of symbols, sections and segments in arbitrary files", "anchors": ["src/analyze.hpp", "src/analyze_x86.hpp"]}
{"id": "C94", "title": "Symbols start where the file gives a reason for it", "statement": "Each symbol of a result starts at the end of a segment's content (zeroed or protected memory), at an entry of a symbol table or its end, at the target of a relocated pointer, at the start of a section or where the code gives a reason (target of a call, mark or instruction behind the end of a function). Conversely there is a symbol at each of these places; without the flag to keep unused symbols only those are left out that contain nothing but NOPs.", "quantifier": "all files, debug symbols and flags for which the analysis succeeds", "why_tests_cant": "arbitrary files, the interplay of all sources of symbols", "anchors": ["src/analyze.hpp", "src/analyze_x86.hpp"]}
{"id": "C95", "title": "Entries of the debug information inherit from their abstract origin", "statement": "In the table of debug information each entry has its own attributes and, where it has none, those of the entry it refers to as its abstract origin (and so on along the chain), in every unit of the file; the table is complete, and it is delivered whenever chains of origins end. The place of a declaration does not depend on the order of entries.", "quantifier": "all debug information: numbers of units and entries, orders, chains of origins", "why_tests_cant": "arbitrary chains, forward and backward references, several units", "anchors": ["tools/dwarfparse.py:310-311", "tools/dwarfparse.py:338-410"]}
{"id": "C96", "title": "Variables of the debug information are those with a fixed or thread-local place", "statement": "The list of variables of a file contains, in the order of the debug information, exactly the variables with a known type whose place is a fixed address (or, for the list of thread-local ones, an offset in the thread-local storage), each with this address, its name and the size and hash of its type. Variables on the stack or in registers are not listed, none is listed twice, and places that are not understood do no harm.", "quantifier": "all debug information: entries, location expressions and lists, orders", "why_tests_cant": "arbitrary location expressions and types", "anchors": ["tools/dwarfparse.py:167-284", "tools/dwarfvars.py:17-27", "tools/dwarfvars.py:286-307"]}
{"id": "C97", "title": "Positions of variables do not depend on the base address", "statement": "The summary of the variables of a file (category, offset and alignment of each) is the same for each page-aligned base address. The category of a variable are the permissions of the memory it is part of, memory protected after relocation included, and its offset counts from the first page of this memory. Symbol table and debug information agree on these, and each variable of the file is listed.", "quantifier": "all program headers, symbol tables and debug information", "why_tests_cant": "arbitrary arrangements of segments, sections and variables", "anchors": ["tools/elfvars.py:39-40", "tools/elfvars.py:127-207", "tools/elfvars.py:235-308"]}
{"id": "C98", "title": "Functions of a summary", "statement": "The summary lists the declarations (type of the result, name, types of the parameters) of all exported functions of a file for which there is debug information, and their names without debug information. It depends neither on the base address nor on the order of the symbol table and of the debug information.", "quantifier": "all symbol tables and debug information, orders, base addresses", "why_tests_cant": "arbitrary tables with aliases, versions and duplicates", "anchors": ["tools/elfvars.py:210-231", "tools/elfvars.py:333-350", "tools/dwarfvars.py:310-313", "tools/dwarfvars.py:333-363"]}
{"id": "C99", "title": "Types of a summary", "statement": "Each struct, class, union and enumeration of the debug information that is not declared in a system header counts for the hash of the types, once for each different type and independently of the order of the debug information; equal texts mean equal types.", "quantifier": "all debug information, orders", "why_tests_cant": "arbitrary types", "anchors": ["tools/elfvars.py:60-70", "tools/elfvars.py:310-331", "tools/dwarfvars.py:316-320"]}
{"id": "C100", "title": "A file that was just linked to another address does not differ", "statement": "If a file is linked to another page-aligned address (all its addresses move by the same distance, code stays the same, data differs only where the dynamic linker fills in addresses), its analysis succeeds if the one of the original does, delivers the same symbols at the moved addresses with the same names, sizes, flags, references, relocations, dependencies and identifiers, and no comparison mode reports a difference in either direction.", "quantifier": "all files, debug symbols, flags, distances, contents of relocated data", "why_tests_cant": "depends on the interplay of all steps of the analysis for arbitrary files and addresses", "anchors": ["src/analyze.hpp", "src/analyze_x86.hpp", "src/bean.cpp:16-38", "src/bean.cpp:91-125"]}
{"id": "C101", "title": "Sizes of variables and types are those of the debug information", "statement": "The list of globals contains each named variable and type of known size, in the order of the debug information, with this size (elements of arrays times their number, over all dimensions) and, for variables, name and number of elements. Stored sizes never make it fail. Sizes of types in the list of variables and in summaries are right as well.", "quantifier": "all debug information without circles, all orders", "why_tests_cant": "arbitrary combinations of arrays, qualifiers, pointers and other names", "anchors": ["tools/dwarfvars.py:201-283", "tools/dwarfvars.py:323-330", "tools/dwarfvars.py:76-198"]}
{"id": "C102", "title": "The file that is meant is opened, and only sound files are analysed", "statement": "Opening a path analyses the file at this path or, if there is none, the one at this path below the root directory; files that are too small, have no valid header or another class or encoding end the program before the analysis. If debug symbols are asked for, a debug file that is found is used, and without one the result is the same as without asking for them.", "quantifier": "all file systems, contents, paths, roots and flags", "why_tests_cant": "lifetimes of temporary objects and accesses before a text often go unnoticed", "anchors": ["include/bean/file.hpp:17-64", "include/bean/file.hpp:66-103"]}
{"id": "C103", "title": "Each file of a list is processed with the options in front of it", "statement": "The programs for hashes and graphs open exactly the files named on the command line, in this order, each one with the options (and the last values of options with a value) that were given in front of it. They stop at the first unknown option and at the first file that cannot be processed and are successful iff there is neither one.", "quantifier": "all command lines", "why_tests_cant": "arbitrary sequences of options and files", "anchors": ["examples/hash.cpp:10-73", "examples/graph.cpp:30-183"]}
{"id": "C104", "title": "The graph marks the visible symbols and the entry point", "statement": "With the option for visible symbols the graph of a file has an edge from the node EXTERN to exactly those symbols that other files can use; with the option for the entry point there is a single edge from the node ENTRY to the symbol at the entry point of the file. All these edges lead to drawn nodes, and the remaining graph does not depend on the options.", "quantifier": "all files, debug symbols, flags and options for which the analysis succeeds", "why_tests_cant": "depends on the order of entries in symbol tables, merging and inserted symbols", "anchors": ["examples/graph.cpp:159-177", "src/analyze.hpp:117-182"]}
{"id": "C105", "title": "The listing of the symbols can be read back", "statement": "Two listings of identifiers are equal exactly if the files have the same identifiers in the same order. Two listings with addresses and names are equal exactly if all symbols agree in identifiers, numbers of references, relocations and dependants, address, thread-local storage, size, type, binding, permissions, name and section.", "quantifier": "all non-empty sets of symbols", "why_tests_cant": "a text format is unambiguous for all values only by an argument about every column; samples do not show overlaps", "anchors": ["src/dump.cpp:281-308", "src/dump.cpp:368-396", "src/dump.cpp:535-544"]}
{"id": "C106", "title": "The lines of references and relocations tell what they refer to", "statement": "The line of a relocation shows on a single line the offset, the type, the name (also of symbols in other files), the identifiers of the symbol it refers to, and the addend, such that different relocations have different lines; name and addend denote the target. The text of a reference determines the address.", "quantifier": "all sets of symbols, relocations and addresses", "why_tests_cant": "the format depends on the presence of symbols, names, types and addends in combination", "anchors": ["src/dump.cpp:343-366", "src/dump.cpp:445-476"]}
{"id": "C107", "title": "The summary of differences is read as it was computed", "statement": "For any two files the text printed by the program for summaries is well-formed JSON with distinct members; reading it yields the verdict, settings, build identifiers and counts of all nine categories, so that different summaries have different texts. The table of versions shows the computed verdict (combined with the hashes), no verdict if the program fails, and marks a category as changed exactly if a symbol of it was added or removed.", "quantifier": "all pairs of files, settings, counts and build identifiers", "why_tests_cant": "the text is assembled from many pieces by hand; a missing comma or quote for one combination of values makes the script drop the result silently", "anchors": ["examples/diffstat.cpp:37-157", "tools/compare.py:115-177"]}
{"id": "C108", "title": "The report about an update of code tells what would be done", "statement": "For any two files the report printed by the program for updates of code (without disassembly) can be read back: it lists all redirects, relocations and skipped places in the order of the update, each with the address in the old and the new file, the symbols and offsets at these addresses, the size of the area or the reason, below the line of the symbol that is changed.", "quantifier": "all pairs of lists of symbols, settings and paths", "why_tests_cant": "the place is printed by three callbacks with hidden state for the current symbol and for the base of numbers; only the update of particular files is tried", "anchors": ["examples/update-code.cpp:15-77", "examples/update-code.cpp:171-178", "include/bean/update.hpp:25-117"]}
{"id": "C109", "title": "The comparison of versions asks for the differences with the requested settings", "statement": "For all options and versions, the script for comparing versions calls the program for differences with arguments that the program reads as exactly the requested settings and the files of the two versions: dependencies, relocations, mode of comparison (at most three letters), debug symbols with the directories of the two versions. The pairs of versions are the consecutive ones (the first with itself), or all.", "quantifier": "all options, directories and objects", "why_tests_cant": "each option is passed on as text and parsed by another program; only few of the combinations are used", "anchors": ["tools/compare.py:34-48", "tools/compare.py:222-243", "examples/diffstat.cpp:167-207"]}
{"id": "C110", "title": "The printed differences and mappings show what was computed", "statement": "For any two files the text printed by the programs for differences and for mappings (without disassembly) can be read back. The listing of differences has a line with the facts of each removed symbol and of each symbol of the new file, in order of their addresses, with a sign that tells which of them are removed, added or kept according to the two reports. The text about the mapping names both files and has for each symbol of the old file its line and, if and only if its address is mapped, the line of the symbol it is mapped to; the lookup of that symbol never fails.", "quantifier": "all pairs of lists of symbols and settings", "why_tests_cant": "the lines are merged from three sets while walking; only the output for particular files is looked at", "anchors": ["examples/diff.cpp:99-130", "examples/map.cpp:100-117", "src/dump.cpp:368-396", "src/dump.cpp:540-544"]}
{"id": "C111", "title": "Entries for imported functions carry the names of the functions", "statement": "If attributes are part of the identifiers, the analysis names the entries through which imported functions are called: for every section whose name starts with .plt. and whose code consists of entries (optional marker for indirect branches, jump through a slot, padding), each entry is present in the result as a symbol at the address of the entry that has the name of the function whose address is put in the slot of the entry by the dynamic linker.", "quantifier": "all files, settings with attributes, and sections with any number of entries", "why_tests_cant": "the names are found while searching for starts of functions, in one pass over all sections with three interacting variables; tests look at particular libraries", "anchors": ["src/analyze_x86.hpp:69-201"]}
{"id": "C112", "title": "The detailed listing tells everything about the symbols", "statement": "For every file the detailed listing of the symbols (levels with disassembly) comes to an end, and everything can be read back from it: for each symbol, in order, the name, size, address, marks, binding, section and permissions, the numbers of references, relocations and dependants, and the identifiers if present; with the highest level also each reference with address and identifiers of the symbol it leads to, each relocation with offset, type, name, identifiers, addend and the access of the instruction, each identifier of a position, and each dependant.", "quantifier": "all non-empty sets of symbols, both builds (with and without debug texts), all debug texts", "why_tests_cant": "a text of nested lists of varying length is unambiguous only by an argument about all of its lines; samples do not show overlaps", "anchors": ["src/dump.cpp:310-341", "src/dump.cpp:397-533"]}
{"id": "C113", "title": "The dump of data shows its content", "statement": "For every symbol that is not code the debug text is a dump from which the content can be read back: each byte of the symbol at its address and nothing else; a line on which no relocation starts has the characters as remark if most of its bytes are printable, any other line has the relocations that start on it, in order, each with its name and addend or with the place it refers to. The lines cannot be confused with the other parts of the detailed listing.", "quantifier": "all symbols, contents and relocations", "why_tests_cant": "addresses, sizes and relocations may be at any position in a line; the state of the loop lasts over all lines, so that a relocation may have an effect on lines far behind it", "anchors": ["src/analyze_x86.hpp:347-422", "src/analyze_x86.hpp:425-441", "src/analyze_x86.hpp:464-468", "src/analyze_x86.hpp:737-740"]}
{"id": "C114", "title": "The disassembly of a function shows its code and references", "statement": "For every function the debug text has one line per instruction that counts for its identifier, in order, with address, bytes and text of the instruction; the line has a note for each address that an operand refers to, with the symbol, and with the relocation of the file at this address. Thus each reference the analysis finds in the function is in the text, and each note is about a reference or an address inside of the function. The lines cannot be confused with the other parts of the detailed listing.", "quantifier": "all functions, contents, decoders and wordings of instructions, symbols and relocations of the file", "why_tests_cant": "instructions have up to fifteen bytes and any number of operands; the debug information is collected separately from the references, so that both may differ for rare operands", "anchors": ["src/analyze_x86.hpp:261-346", "src/analyze_x86.hpp:425-441", "src/analyze_x86.hpp:483-673"]}
{"id": "C115", "title": "The script for the daemon passes on the requested settings", "statement": "For every command line of the script that prepares the caches and starts the daemon, the tool is executed once per directory (for exactly the shared objects in it) and once as daemon on the socket, unless only caches are requested; each time with the options given after -- or else the default options, with the last prefix for the cache, and without use of debug symbols if this was requested.", "quantifier": "all sequences of arguments, files and own options", "why_tests_cant": "arguments are handled by shifts, arrays and splitting of words, where a mistake affects only certain orders of arguments or names", "anchors": ["tools/elfvarsd.sh:3-80"]}
{"id": "C116", "title": "Library and tools read the same build ID and debug link", "statement": "For every ELF file, the Python tools read the same build ID and the same debug link as the C++ library, so that both identify the file and its debug symbols alike.", "quantifier": "all lists of sections, notes and contents", "why_tests_cant": "which note or section wins and which sizes are accepted matters only for unusual files; no test compares the two languages", "anchors": ["src/build_id.cpp:15-40", "src/debug_sym.cpp:139-162", "tools/dbgsym.py:35-60", "tools/elfvars.py:100-112"]}
{"id": "C117", "title": "The tools read the requested file, and debug symbols exactly on request", "statement": "The Python tools analyse the file with the given name, looked up in the current directory and then below the base directory; debug symbols are used if and only if requested, from the file itself or else, if external ones are requested, from the first place where they exist; this never makes the analysis fail.", "quantifier": "all file systems, names, base directories and combinations of options", "why_tests_cant": "depends on the layout of the file system and on the current directory", "anchors": ["tools/elfvars.py:73-88", "tools/elfvars.py:114-118", "tools/elfvars.py:357-374", "tools/dbgsym.py:13-26", "tools/dwarfvars.py:37-57"]}
{"id": "C118", "title": "Cells of the comparison show the changes at every level of verbosity", "statement": "In the comparison of versions, each cell shows the verdict; with the first level of verbosity it additionally names exactly what has changed (build ID, categories of sections, debug symbols); higher levels only add text, with number and size of the symbols (total, added, removed) behind the category they belong to.", "quantifier": "all results of the tools, all hashes, all levels of verbosity", "why_tests_cant": "combinations of levels, changes and missing data are too many to look at", "anchors": ["tools/compare.py:126-206"]}
{"id": "C119", "title": "The summary of the comparison tells result and settings", "statement": "The sentence at the end of the comparison of an object determines the number of possible updates, the number of versions and the settings used; the percentage is the rounded share.", "quantifier": "all numbers of versions and updates, all settings", "why_tests_cant": "rounding and enumeration of settings differ for certain values only", "anchors": ["tools/compare.py:281-293"]}
{"id": "C120", "title": "Source files of declarations are named correctly", "statement": "For every declaration in the debug information, the tools name the source file that the DWARF standard assigns to its number (in all versions of the format), and a type counts as one of a system header exactly if this file is within one of the directories for them.", "quantifier": "all line programs, numbers, directories and names", "why_tests_cant": "numbering differs between versions of the format, and names depend on how the compiler was called", "anchors": ["tools/dwarfparse.py:114-143", "tools/dwarfparse.py:396-408", "tools/dwarfvars.py:319"]}
{"id": "C121", "title": "Lists of the debug information tool are ordered, complete and readable", "statement": "The list of variables has one line for each variable in the order of addresses; a line of a variable, type, definition or function tells everything it shows without ambiguity; with the option for JSON the list is a text of JSON; the hash at the end of the list of types tells whether all types agree.", "quantifier": "all debug information, options, names, types and hashes", "why_tests_cant": "ambiguous texts need particular names, and the order of elements is arbitrary", "anchors": ["tools/dwarfvars.py:401-422"]}
{"id": "C122", "title": "Only suitable files and debug symbols are analysed", "statement": "The construction of the symbols of a file succeeds only for machines the library can disassemble, with a working disassembler and with debug symbols that belong to the file; otherwise it fails, so that a result is always the one of an analysis.", "quantifier": "all files, headers, debug symbols, flags and builds", "why_tests_cant": "files of other machines, failing disassemblers and mismatched debug symbols, in builds with and without assertions", "anchors": ["src/bean.cpp:analyze", "src/bean.cpp:Bean::Bean", "src/analyze.hpp:Analyze::Analyze", "src/analyze_x86.hpp:AnalyzeX86::AnalyzeX86", "src/capstone.cpp:capstone_init"]}
{"id": "C123", "title": "An approved update keeps the variables of the running program", "statement": "If the comparison of two analysed files approves an update, each variable of the new version (writeable, not read-only after relocation) has a counterpart in the old version with the same attributes of its section, the same offset in its page, the same size and the same initial value outside of what is subject to relocations, so that the state of the running program can be used further on.", "quantifier": "all pairs of analysed files, flags, comparison modes, with and without dependencies", "why_tests_cant": "hash-based verdict for arbitrary files; needs the analysis, the identifiers and the comparison together", "anchors": ["include/bean/bean.hpp:patchable", "src/bean.cpp:Bean::diff", "src/analyze_x86.hpp:hash_internal"]}
{"id": "C124", "title": "The tree of the comparison shows the compared objects", "statement": "The tree of files in the output of the comparison of versions highlights exactly the objects that are compared, each at its place and once; other files are shown without highlighting, and the entries of each directory are in alphabetical order with directories first.", "quantifier": "all directory trees (with links and hidden entries), sets of compared objects and conversions to small letters", "why_tests_cant": "recursive walk over arbitrary trees with sorting at each level, compared with an independent search for objects", "anchors": ["tools/compare.py:walk_directory"]}
{"id": "C125", "title": "32-bit files are analysed like 64-bit ones", "statement": "For files of 32-bit systems (386, 486) each function refers to the functions it calls or jumps to and to the data its instructions access, so that it is reported if these change; files with tables of jumps to imported functions, relocations of thread-local variables, indirect and packed relocations are analysed according to their processor.", "quantifier": "all 32-bit files, debug symbols, flags and instruction decoders for the 32-bit mode", "why_tests_cant": "the library accepts these files, but constants of 64-bit systems and operands that only exist there are spread over the analysis; no tests with such files exist", "anchors": ["src/bean.cpp:40-57", "src/analyze_x86.hpp:25-59", "src/analyze_x86.hpp:find_additional_functions", "src/analyze_x86.hpp:add_relocations", "src/analyze_x86.hpp:hash_internal"]}
{"id": "C126", "title": "References, names of origins and address ranges in the debug information are right", "statement": "For every entry of the debug information the type and the declaration it refers to are the entries meant by the file, in every unit and for references from the start of the unit or of the section. The name shown for an origin is the one of the origin, its declaration or its own origin; finding no name does no harm to the attributes taken over from the origin. The address ranges of an entry are those of its list, each relative to the address that applies at this point.", "quantifier": "all debug information: units, forms of references, chains of origins and declarations, lists of ranges", "why_tests_cant": "references across units, declarations without names and ranges of several bases occur only with some compilers and options; failures are printed and otherwise ignored", "anchors": ["tools/dwarfparse.py:29-37", "tools/dwarfparse.py:74-75", "tools/dwarfparse.py:146-165", "tools/dwarfparse.py:286-314", "tools/dwarfparse.py:353-365", "tools/dwarfvars.py:68-74"]}
{"id": "C127", "title": "Debug symbols are downloaded only if needed and kept for later", "statement": "The search for debug symbols asks the services for debug information only if this is allowed, the build identifier is known and no file is found locally; it asks them in turn with this identifier until one delivers the file. The delivered file has the contents the service gave, nothing else is changed, it is found again without a request, and files of different identifiers are kept apart. Interrupted downloads are never taken for debug symbols, and the variables of files with downloaded symbols are listed.", "quantifier": "all file systems, queries, base directories and behaviours of the services including lost connections", "why_tests_cant": "services and lost connections cannot be tested offline; sequences of searches", "anchors": ["tools/dbgsym.py:62-116", "tools/elfvars.py:114-119", "tools/elfvars.py:282-283"]}
{"id": "C128", "title": "The server for variables listens where it is told and can be started again", "statement": "The server listens on the network if the given text is a host and a port, and at a file otherwise, in particular whenever the text contains a slash. Existing files are left alone. After its end the server can be started again at the same place.", "quantifier": "all texts, files present at the start, and ends of the server", "why_tests_cant": "the pattern of addresses accepts unboundedly many texts; ends of the server caused by clients", "anchors": ["tools/elfvars.py:485-502"]}
{"id": "C129", "title": "Every file gets its result, and the comparison of versions uses it", "statement": "Called with several files, the program for variables prints one result for each of them, in order, naming the file relative to the base directory. The comparison of versions offers an update only if the program for differences allows it and the results of both versions have the same hashes.", "quantifier": "all file systems, directories, names, contents of files and results of the other programs", "why_tests_cant": "depends on the current directory, links and the interplay of two programs", "anchors": ["tools/elfvars.py:76-79", "tools/elfvars.py:276-278", "tools/elfvars.py:439-482", "tools/compare.py:209-256"]}
{"id": "C130", "title": "The detailed listing names the types of relocations", "statement": "In the detailed listing, the type of each relocation is shown with the name the ABI of the machine defines; for all numbers, also those without name, the machine and the number can be told from what is shown. This also holds for reconstructed relocations.", "quantifier": "all machines, types of relocations, and states of the analysis", "why_tests_cant": "complete tables for two machines, reconstructed relocations depend on the state of the analysis", "anchors": ["src/dump.cpp:6-278", "src/dump.cpp:452-453", "src/analyze_x86.hpp:797-862"]}
{"id": "C131", "title": "The comparison of versions takes the versions in their order", "statement": "The comparison of versions compares each version with the one before it: of two versions whose names are the same up to a number, the one with the smaller number is the earlier one, whatever follows; candidates of a release come before the release. The order, and so the result, is the same each time the program is run for the same directories.", "quantifier": "all sets of names of versions, and all orders in which the set delivers them", "why_tests_cant": "order for arbitrary names, and a set whose order is different in each run", "anchors": ["tools/compare.py:54-87", "tools/compare.py:230-243"]}
{"id": "C132", "title": "The programs compare the two files that were asked for", "statement": "The program for updates compares the file given by the first name and the first directory with the one given by the second name and the second directory; with one name and two directories these are the two versions of the file below the directories. Its exit code is the verdict for these two files with the settings of the options.", "quantifier": "all argument lists, file systems and contents of files", "why_tests_cant": "file systems with files at several places, all combinations of names and directories", "anchors": ["examples/update.cpp:12-121", "include/bean/file.hpp:84-93"]}
{"id": "C133", "title": "Summaries, updates and the table of versions agree", "statement": "For the same arguments, the program for summaries and the program for updates give the same verdict. The table of versions shows an update for two versions of an object exactly if both files can be analysed, the update is possible for them with the settings asked for, and the hashes of their variables do not differ. If a file is refused, the table has no verdict.", "quantifier": "all argument lists, file systems, contents of files and hashes", "why_tests_cant": "requires the two programs, the script and all pairs of files", "anchors": ["examples/diffstat.cpp:78-152", "examples/diffstat.cpp:155-231", "examples/update.cpp:12-121", "tools/compare.py:115-125", "tools/compare.py:144-160"]}
{"id": "C134", "title": "The listing of differences agrees with the program for updates", "statement": "For the same arguments, the program for differences and the program for updates look at the same two files with the same settings: the update is possible exactly if none of the symbols listed as new prevents it; in particular, it is possible if nothing is listed. The program for mappings works on the two files in the same way.", "quantifier": "all argument lists, file systems and contents of files", "why_tests_cant": "argument lists, file systems and pairs of files", "anchors": ["examples/diff.cpp:23-128", "examples/map.cpp:24-116", "examples/update.cpp:12-121", "examples/update-code.cpp:86-176"]}
{"id": "C135", "title": "Control sequences do not change the output and are undone", "statement": "On a terminal, listings, differences and mappings appear as the same text as without control sequences; new symbols and those with a mapping are green, removed symbols and those without a mapping are red, and the attributes of the terminal are the usual ones afterwards. The same holds for identifiers written to a stream.", "quantifier": "all symbols, levels of verbosity and attributes of the terminal", "why_tests_cant": "symbols with all combinations of flags, relocations and names", "anchors": ["src/dump.cpp:304-544", "include/bean/bean.hpp:459-470", "examples/diff.cpp:105-128", "examples/map.cpp:106-116"]}
{"id": "C136", "title": "The search for debug symbols answers for each file", "statement": "The program for searching debug symbols prints one line for each file, in the order of the arguments: the path of the first place at which there is a file, or a message if and only if there is none. Printed paths exist when the program ends. The option for details only adds lines; without the option for downloads, no service is asked and no file is changed.", "quantifier": "all lists of files, directories, contents of the file system and answers of the services", "why_tests_cant": "several files with different sections, places and downloads within one run", "anchors": ["tools/dbgsym.py:13-33", "tools/dbgsym.py:119-157"]}
{"id": "C137", "title": "The form of numbers in the debug information does not matter", "statement": "Types, sizes, bounds and offsets of members depend on the numbers in the debug information only, not on the form in which these are stored (data1, data2, data4, data8, sdata, udata or as part of the abbreviation).", "quantifier": "all tables of entries, forms and orders of requests", "why_tests_cant": "compilers choose the form by value, version of the format and number of uses", "anchors": ["tools/dwarfparse.py:74-106", "tools/dwarfparse.py:330", "tools/dwarfparse.py:353-365", "tools/dwarfvars.py:31-35", "tools/dwarfvars.py:166-198"]}
{"id": "C138", "title": "Different encodings of base types are told apart", "statement": "The description of an encoding, language or other attribute with named values in the debug information differs for different values, so that types with different encodings do not get the same text.", "quantifier": "all tables of names and values", "why_tests_cant": "the tables are those of the library in use, and compilers for newer versions of the format use values without names there", "anchors": ["tools/dwarfparse.py:109-113", "tools/dwarfparse.py:320-324", "tools/dwarfvars.py:183-186"]}
{"id": "C139", "title": "Patterns select versions and files by their whole names", "statement": "With patterns for the names of versions (or files), the comparison of versions takes exactly the directories (or files) whose whole names are described by one of the patterns.", "quantifier": "all patterns of characters, alternatives, groups and repetitions, and all names", "why_tests_cant": "patterns and names are chosen by users, and names that only partly match are rare in test directories", "anchors": ["tools/compare.py:33", "tools/compare.py:38", "tools/compare.py:57-63", "tools/compare.py:73-77"]}
{"id": "C140", "title": "Definitions of variables say what is constant", "statement": "In the definitions of global variables, the base type and the number of pointers are those of the debug information, and the place of const tells whether the pointer or what it points to is constant.", "quantifier": "all variables whose types are made of base types, pointers and constants, at any depth", "why_tests_cant": "the combinations of pointers and constants are unbounded; the text looks like a valid definition in any case", "anchors": ["tools/dwarfvars.py:201-283", "tools/dwarfvars.py:323-330"]}
{"id": "C141", "title": "The program for debug information reads the file it is given", "statement": "The program for debug information lists what is in the file given, or in its separate debug file; names are also looked up below the base directory. If there is no file or no debug information, it ends with an error.", "quantifier": "all file systems, base directories and names of files", "why_tests_cant": "all arrangements of files, links and directories", "anchors": ["tools/dwarfvars.py:36-66", "tools/dwarfvars.py:367-401"]}
{"id": "C142", "title": "The summary of the comparison names the object", "statement": "The summary shown after the comparison of the versions of an object contains the name of that object as it is.", "quantifier": "all names of objects, settings and numbers of versions", "why_tests_cant": "all names, including those with characters that are special for the library that prints them", "anchors": ["tools/compare.py:281-297"]}
{"id": "C143", "title": "The results of the comparison are written to the files given", "statement": "Every file named for the output of the comparison of versions contains the complete output afterwards, as HTML, SVG or text depending on its name; other files are left as they are.", "quantifier": "all names of files, uses of the option and files present before", "why_tests_cant": "all names and numbers of files", "anchors": ["tools/compare.py:40", "tools/compare.py:299-332"]}
{"id": "C144", "title": "A dump of machine code has all of its bytes", "statement": "If the dump of machine code reports success, its lines are the instructions from the first to the last byte of the code, each with address, bytes and text.", "quantifier": "all codes, addresses and decoders", "why_tests_cant": "all byte strings, including those that are no valid instructions", "anchors": ["src/capstone.cpp:63-89", "src/capstone.hpp:12-16"]}
{"id": "C145", "title": "Definitions of types show what the types consist of", "statement": "The definition listed for a named structure, class, union or enumeration is the one in C: its keyword, its name and its members with types, names and offsets or its enumerators with their values, in order.", "quantifier": "all debug information, types and numbers of members", "why_tests_cant": "all nestings of types and numbers of members", "anchors": ["tools/dwarfvars.py:201-283", "tools/dwarfvars.py:323-330"]}
