{
 "claims": [
  {
   "property": "C01",
   "status": "proved",
   "theorems": [
    "Bean.Props.C01_tls_roundtrip",
    "Bean.Props.C01_tls_injective",
    "Bean.Props.C01_tls_regular",
    "Bean.Props.C01_virt_addr_any",
    "Bean.Props.C01_flag_bits_are_lost"
   ],
   "note": "C01_flag_bits_are_lost shows that the restriction to addresses without flag bits is needed."
  },
  {
   "property": "C02",
   "status": "proved",
   "theorems": [
    "Bean.Props.C02_tls_order",
    "Bean.Props.C02_tls_last",
    "Bean.Props.C02_bound_needed"
   ],
   "note": "Bound 2^52 is needed: C02_bound_needed."
  },
  {
   "property": "C03",
   "status": "proved",
   "theorems": [
    "Bean.Props.C03_get_sound",
    "Bean.Props.C03_get_complete",
    "Bean.Props.C03_get_none",
    "Bean.Props.C03_marker_hides",
    "Bean.Props.C03_wrap_hides"
   ],
   "note": "Completeness needs disjoint symbols without wrap-around; C03_marker_hides and C03_wrap_hides show that."
  },
  {
   "property": "C04",
   "status": "proved",
   "theorems": [
    "Bean.Props.C04_find_some",
    "Bean.Props.C04_find_none"
   ],
   "note": ""
  },
  {
   "property": "C05",
   "status": "proved",
   "theorems": [
    "Bean.Props.C05_self_diff_empty"
   ],
   "note": ""
  },
  {
   "property": "C06",
   "status": "proved",
   "theorems": [
    "Bean.Props.C06_diff_extended_exact",
    "Bean.Props.C06_diff_internal_exact",
    "Bean.Props.C06_diff_api"
   ],
   "note": "For both comparison classes with an arbitrary skip callback; the representative is the lowest symbol of that identity."
  },
  {
   "property": "C07",
   "status": "proved",
   "theorems": [
    "Bean.Props.C07_sized_only"
   ],
   "note": ""
  },
  {
   "property": "C08",
   "status": "proved",
   "theorems": [
    "Bean.Props.C08_dependencies_terminate"
   ],
   "note": ""
  },
  {
   "property": "C09",
   "status": "proved",
   "theorems": [
    "Bean.Props.C09_only_affected",
    "Bean.Props.C09_only_affected_internal"
   ],
   "note": ""
  },
  {
   "property": "C10",
   "status": "partial",
   "theorems": [
    "Bean.Props.C10_report_closed_partial",
    "Bean.Props.C10_complete_partial",
    "Bean.Props.C10_complete_internal_partial",
    "Bean.Props.C10_counterexample"
   ],
   "note": "False as stated: the dependents of a second changed symbol with equal identity are lost (C10_counterexample). Proved: closedness of the report in general, and full completeness if no two symbols have equal identity."
  },
  {
   "property": "C11",
   "status": "proved",
   "theorems": [
    "Bean.Props.C11_writeable_internal"
   ],
   "note": ""
  },
  {
   "property": "C12",
   "status": "proved",
   "theorems": [
    "Bean.Props.C12_executable_extended"
   ],
   "note": ""
  },
  {
   "property": "C13",
   "status": "proved",
   "theorems": [
    "Bean.Props.C13_mode_monotone",
    "Bean.Props.C13_mixed_subset",
    "Bean.Props.C13_dependencies_counterexample"
   ],
   "note": "C13_dependencies_counterexample shows that the claim does not extend to comparisons with dependencies."
  },
  {
   "property": "C14",
   "status": "proved",
   "theorems": [
    "Bean.Props.C14_patchable_iff",
    "Bean.Props.C14_patchable_pair"
   ],
   "note": ""
  },
  {
   "property": "C15",
   "status": "proved",
   "theorems": [
    "Bean.Props.C15_patchable_members"
   ],
   "note": ""
  },
  {
   "property": "C16",
   "status": "proved",
   "theorems": [
    "Bean.Props.C16_lookup_exact",
    "Bean.Props.C16_hash_irrelevant",
    "Bean.Props.C16_map_hash_irrelevant"
   ],
   "note": ""
  },
  {
   "property": "C17",
   "status": "partial",
   "theorems": [
    "Bean.Props.C17_invalid_mode_partial",
    "Bean.Props.C17_counterexample"
   ],
   "note": "False in a release build (C17_counterexample). In a build with assertions the call fails (C17_invalid_mode_partial)."
  },
  {
   "property": "C18",
   "status": "proved",
   "theorems": [
    "Bean.Props.C18_mapped_compatible"
   ],
   "note": ""
  },
  {
   "property": "C19",
   "status": "partial",
   "theorems": [
    "Bean.Props.C19_unambiguous_partial",
    "Bean.Props.C19_ambiguous_counterexample",
    "Bean.Props.C19_unambiguous_lost_counterexample"
   ],
   "note": "False as stated: ambiguous targets are removed by their own address instead of by source address (C19_ambiguous_counterexample), and unrelated unambiguous pairs are lost for the same reason (C19_unambiguous_lost_counterexample). C19_unambiguous_partial: if no source address has two justified targets, all unchanged symbols keep their pair."
  },
  {
   "property": "C20",
   "status": "proved",
   "theorems": [
    "Bean.Props.C20_self_map_identity",
    "Bean.Props.C20_names_needed"
   ],
   "note": "Under distinct places and, with names, distinct names; C20_names_needed shows that this is needed."
  },
  {
   "property": "C21",
   "status": "proved",
   "theorems": [
    "Bean.Props.C21_mapped_justified"
   ],
   "note": ""
  },
  {
   "property": "C22",
   "status": "proved",
   "theorems": [
    "Bean.Props.C22_redirect_functions",
    "Bean.Props.C22_redirect_complete"
   ],
   "note": ""
  },
  {
   "property": "C23",
   "status": "proved",
   "theorems": [
    "Bean.Props.C23_redirect_range",
    "Bean.Props.C23_offset_counterexample"
   ],
   "note": "For relocations whose instruction lies in the symbol, as the property demands; C23_offset_counterexample shows what uninitialised instruction offsets do."
  },
  {
   "property": "C24",
   "status": "proved",
   "theorems": [
    "Bean.Props.C24_flags"
   ],
   "note": ""
  },
  {
   "property": "C25",
   "status": "proved",
   "theorems": [
    "Bean.Props.C25_relocation_once",
    "Bean.Props.C25_no_target",
    "Bean.Props.C25_no_silent_drop"
   ],
   "note": ""
  },
  {
   "property": "C26",
   "status": "proved",
   "theorems": [
    "Bean.Props.C26_shift"
   ],
   "note": ""
  },
  {
   "property": "C27",
   "status": "proved",
   "theorems": [
    "Bean.Props.C27_insertions",
    "Bean.Props.C27_monotone",
    "Bean.Props.C27_total",
    "Bean.Props.C27_wrap_counterexample"
   ],
   "note": "C27_wrap_counterexample shows that the guard on ranges at the end of the address space is needed for the sizes."
  },
  {
   "property": "C28",
   "status": "partial",
   "theorems": [
    "Bean.Props.C28_typed_dropped",
    "Bean.Props.C28_counterexample",
    "Bean.Props.C28_typed_visible_partial"
   ],
   "note": "False for untyped symbols: C28_typed_dropped shows that such an insertion never has an effect, C28_counterexample is a witness. Proved for symbols of unknown type and section, file and common symbols."
  },
  {
   "property": "C29",
   "status": "partial",
   "theorems": [
    "Bean.Props.C29_counterexample",
    "Bean.Props.C29_attributes_partial"
   ],
   "note": "False as stated: an end marker inserted after a symbol without size resets its attributes (C29_counterexample). Proved for symbols with a size if no untyped entry shares the address."
  },
  {
   "property": "C30",
   "status": "proved",
   "theorems": [
    "Bean.Props.C30_present",
    "Bean.Props.C30_size",
    "Bean.Props.C30_only",
    "Bean.Props.C30_undefined_ignored"
   ],
   "note": "C30_size spells out which earlier symbols take precedence."
  },
  {
   "property": "C31",
   "status": "partial",
   "theorems": [
    "Bean.C31_files_inside_partial",
    "Bean.C31_relro",
    "Bean.C31_files_sound_partial",
    "Bean.C31_files_complete_partial",
    "Bean.C31_thread_local",
    "Bean.C31_files_counterexample",
    "Bean.C31_grown",
    "Bean.Props.C31_flag_sound",
    "Bean.Props.C31_flag_complete_partial",
    "Bean.Props.C31_counterexample",
    "Bean.Props.C31_section_regions",
    "Bean.Props.C31_segment_regions"
   ],
   "note": "Soundness is proved as stated for the sizes known when the flags are set, and regions of the file are exactly those announced (C31_section_regions, C31_segment_regions). For results of the complete analysis: C31_files_sound_partial (the symbol starts in the region), as sizes grow afterwards (C31_grown); without reconstruction symbols lie completely in regions that end with a symbol (C31_files_inside_partial), which all RELRO regions do (C31_relro). Completeness is false for symbols that end at the end of the region (C31_counterexample, C31_files_counterexample) and proved for all others (C31_files_complete_partial). Thread-local symbols never get a flag (C31_thread_local)."
  },
  {
   "property": "C32",
   "status": "proved",
   "theorems": [
    "Bean.C32_coverage",
    "Bean.C32_exact_size"
   ],
   "note": ""
  },
  {
   "property": "C33",
   "status": "proved",
   "theorems": [
    "Bean.C33_files",
    "Bean.C33_position_independent",
    "Bean.C33_same_bytes",
    "Bean.C33_references"
   ],
   "note": ""
  },
  {
   "property": "C34",
   "status": "partial",
   "theorems": [
    "Bean.C34_files_partial",
    "Bean.C34_nops_and_padding_partial",
    "Bean.C34_counterexample"
   ],
   "note": "The hash of a function skips NOPs and trailing zero padding, and the size of the padding is irrelevant, as long as no NOP precedes the padding. C34_counterexample: padding that starts with a NOP is hashed."
  },
  {
   "property": "C35",
   "status": "partial",
   "theorems": [
    "Bean.C35_files_data",
    "Bean.C35_files_partial",
    "Bean.C35_references_partial",
    "Bean.C35_counterexample"
   ],
   "note": "Holds for functions without backward branch behind a branch beyond the end; C35_counterexample: a later branch overwrites the highest branch target, so that a reference is lost."
  },
  {
   "property": "C36",
   "status": "partial",
   "theorems": [
    "Bean.C36_files",
    "Bean.C36_input",
    "Bean.C36_one_instruction",
    "Bean.C36_instruction_partial",
    "Bean.C36_prefix_ignored",
    "Bean.C36_counterexample"
   ],
   "note": "Equality of the hash input is equivalent to equal forms (mnemonic, operands, prefixes up to the first zero). C36_counterexample: prefixes behind an absent prefix group do not contribute, so a word store and a long store share an identifier."
  },
  {
   "property": "C37",
   "status": "proved",
   "theorems": [
    "Bean.C37_files",
    "Bean.C37_identifier",
    "Bean.C37_same_input"
   ],
   "note": ""
  },
  {
   "property": "C38",
   "status": "proved",
   "theorems": [
    "Bean.C38_files",
    "Bean.C38_moved",
    "Bean.C38_writeable"
   ],
   "note": ""
  },
  {
   "property": "C39",
   "status": "partial",
   "theorems": [
    "Bean.C39_files",
    "Bean.C39_files_debug",
    "Bean.C39_zero",
    "Bean.C39_backed_partial",
    "Bean.C39_counterexample",
    "Bean.C39_debug"
   ],
   "note": "Zero-initialised data: proved. File-backed data is never taken for zero-initialised in a debug build with separate segments (C39_debug) and in any build with segments ascending in offset and address (C39_backed_partial). C39_counterexample: in a release build the segment lookup by file offset lets file-backed data be hashed as zeros."
  },
  {
   "property": "C40",
   "status": "proved",
   "theorems": [
    "Bean.C40_files",
    "Bean.C40_input",
    "Bean.C40_external",
    "Bean.C40_references",
    "Bean.C40_total",
    "Bean.C40_distinguishes"
   ],
   "note": ""
  },
  {
   "property": "C41",
   "status": "proved",
   "theorems": [
    "Bean.C41_files",
    "Bean.C41_dependencies",
    "Bean.C41_inverse"
   ],
   "note": ""
  },
  {
   "property": "C42",
   "status": "proved",
   "theorems": [
    "Bean.C42_files",
    "Bean.C42_removed",
    "Bean.C42_keep"
   ],
   "note": ""
  },
  {
   "property": "C43",
   "status": "partial",
   "theorems": [
    "Bean.C43_files_partial",
    "Bean.C43_files_counterexample",
    "Bean.C43_displacement_partial",
    "Bean.C43_got_counterexample",
    "Bean.C43_bare_counterexample",
    "Bean.C43_location_counterexample",
    "Bean.C43_segment_counterexample"
   ],
   "note": "C43_displacement_partial: relocation exists at the operand and reproduces the displacement, for decoders that keep operands inside of instructions of at most 15 bytes. False as stated: entries of the global offset table that are not imported (C43_got_counterexample), targets below all symbols (C43_bare_counterexample), targets at the location of another relocation (C43_location_counterexample), operands that use both the segment of the thread-local storage and the instruction pointer (C43_segment_counterexample). Instructions with several references are included as long as those at the same location agree. C43_files_partial and C43_files_counterexample state the same for results of the complete analysis in terms of the files."
  },
  {
   "property": "C44",
   "status": "partial",
   "theorems": [
    "Bean.C44_files_partial",
    "Bean.C44_files_counterexample",
    "Bean.C44_instruction_partial",
    "Bean.C44_counterexample"
   ],
   "note": "Proved for relocations whose location is not itself the target of a reference in the function; C44_counterexample shows that such a reference overwrites the instruction offset. For results of the complete analysis: C44_files_partial, C44_files_counterexample."
  },
  {
   "property": "C45",
   "status": "partial",
   "theorems": [
    "Bean.C45_files_partial",
    "Bean.C45_files_counterexample",
    "Bean.C45_attached_partial",
    "Bean.C45_replaced",
    "Bean.C45_counterexample"
   ],
   "note": "False as stated: the lookup uses the target instead of the location, so that relocations at other locations are modified (C44_counterexample), and a relocation of the file at a reconstructed location is dropped with its reference (C45_replaced, C45_counterexample). C45_attached_partial: all other relocations of the file are kept. For results of the complete analysis: C45_files_partial (a relocation of the file is attached if and only if nothing was reconstructed there), C45_files_counterexample."
  },
  {
   "property": "C46",
   "status": "partial",
   "theorems": [
    "Bean.C46_files",
    "Bean.C46_files_partial",
    "Bean.C46_identifiers",
    "Bean.C46_recorded_partial",
    "Bean.C46_counterexample"
   ],
   "note": "False as stated: the first target behind each processed function is skipped, so that a function without reference to its start may get no identifier at all (C46_counterexample, from a file with reconstructed relocations). C46_recorded_partial: all targets are recorded if something refers to the start of the function; C46_identifiers: every recorded identifier belongs to such a target and is determined by the code in front."
  },
  {
   "property": "C47",
   "status": "partial",
   "theorems": [
    "Bean.Props.C47_analysis_partial",
    "Bean.Props.C47_reconstructed_partial",
    "Bean.Props.C47_map",
    "Bean.Props.C47_diff",
    "Bean.Props.C47_update_partial",
    "Bean.Props.C47_counterexample",
    "Bean.Props.C47_map_counterexample"
   ],
   "note": "False for update: a pointer in the data is changed or not depending on memory the constructor of a relocation does not initialise (C47_counterexample, an update restricted to branches). Proved for analysis without reconstruction of relocations: outcome of the analysis, mapping and differences do not depend on it apart from the two members themselves (C47_analysis_partial, C47_map, C47_diff); with reconstruction the symbols agree up to the identifiers of positions (C47_reconstructed_partial); an update that is not restricted to branches and treats local branches like other relocations does the same calls (C47_update_partial). With reconstruction the claim is false for the mapping, too (C47_map_counterexample: a relocation of the file in the code of a function keeps the members as they are; whether a position inside of the function is mapped depends on them)."
  },
  {
   "property": "C48",
   "status": "proved",
   "theorems": [
    "Bean.C48_text",
    "Bean.C48_no_file",
    "Bean.C48_lossless",
    "Bean.C48_truncated",
    "Bean.C48_uninitialised",
    "Bean.C48_no_abort",
    "Bean.C48_copy"
   ],
   "note": "For all note contents up to 20 bytes as stated; C48_truncated: longer identifiers are cut and no longer distinct; C48_uninitialised: in debug builds the assertion on the last byte of the buffer reads uninitialised memory for identifiers shorter than 20 bytes (assumptions on BufferStream of dlh are in the model). If several sections have an identifier the last one counts. C48_no_file: no identifier without file."
  },
  {
   "property": "C49",
   "status": "partial",
   "theorems": [
    "Bean.C49_first",
    "Bean.C49_again",
    "Bean.C49_binary"
   ],
   "note": "C49_first and C49_binary hold for an object without previous successful search and paths up to PATH_MAX; false for repeated searches, the stream is not emptied after success (C49_again). The third place is described as in the code, see C50."
  },
  {
   "property": "C50",
   "status": "partial",
   "theorems": [
    "Bean.C50_agree_partial",
    "Bean.C50_link",
    "Bean.C50_wrong_file",
    "Bean.C50_suffix"
   ],
   "note": "False as stated: the slash between directory and debug link is missing (C50_link), even a wrong file can be taken (C50_wrong_file); the tool replaces the suffix where the library appends one (C50_suffix). C50_agree_partial: both look at the same places in the same order if there is no debug link (or the file is in the root directory) and the name of the file has no dot."
  },
  {
   "property": "C51",
   "status": "partial",
   "theorems": [
    "Bean.Props.C51_listing",
    "Bean.Props.C51_duplicates"
   ],
   "note": "C51_listing: the listing has the whole report about the old file and each symbol of the new file once, in order of addresses, marked as added iff the report about the new file contains it. Missing: reports contain equal identities only once (C06), hence C51_duplicates: a changed symbol may be shown as unchanged."
  },
  {
   "property": "C52",
   "status": "proved",
   "theorems": [
    "Bean.Props.C52_normalize",
    "Bean.Props.C52_words",
    "Bean.Props.C52_identifier_partial",
    "Bean.Props.C52_counterexample",
    "Bean.Props.C52_cluster"
   ],
   "note": "C52_normalize is the statement for all texts. Beyond it: C52_cluster (names of clusters are valid identifiers), C52_identifier_partial and C52_counterexample (the name of the graph is a valid identifier iff the text neither is empty nor starts with a digit)."
  },
  {
   "property": "C53",
   "status": "proved",
   "theorems": [
    "Bean.Props.C53_clusters",
    "Bean.Props.C53_balanced",
    "Bean.Props.C53_counterexample"
   ],
   "note": "C53_clusters and C53_balanced for all symbols with named sections, as stated; C53_counterexample: a symbol without section name leaves a cluster open."
  },
  {
   "property": "C54",
   "status": "partial",
   "theorems": [
    "Bean.Props.C54_bounds_partial",
    "Bean.Props.C54_removed_partial",
    "Bean.Props.C54_counterexample",
    "Bean.Props.C54_disjoint",
    "Bean.Props.C54_writeable_code",
    "Bean.Props.C54_duplicates"
   ],
   "note": "C54_counterexample: counts of removed symbols may exceed the totals, which are those of the new file. C54_bounds_partial: added symbols are bounded by the totals (sizes if they are representable); C54_removed_partial: removed ones by the old file. C54_disjoint: categories are disjoint as stated; C54_writeable_code: without the restriction they are not; C54_duplicates: equal identities are counted once (C06)."
  },
  {
   "property": "C55",
   "status": "partial",
   "theorems": [
    "Bean.Props.C55_identities",
    "Bean.Props.C55_sortuniq_partial",
    "Bean.Props.C55_text_partial",
    "Bean.Props.C55_counterexample"
   ],
   "note": "The identities of the variables do not depend on the order (C55_identities). The hash does not either if entries with the same category, value and name are equal (C55_text_partial); without this it does (C55_counterexample), as the first of them in the input is kept."
  },
  {
   "property": "C56",
   "status": "partial",
   "theorems": [
    "Bean.Props.C56_sorted",
    "Bean.Props.C56_places",
    "Bean.Props.C56_complete_partial",
    "Bean.Props.C56_counterexample"
   ],
   "note": "Result is strictly sorted and from the input; complete if no two categories share value and name. Otherwise an entry of a further category is lost (C56_counterexample)."
  },
  {
   "property": "C57",
   "status": "partial",
   "theorems": [
    "Bean.Props.C57_key",
    "Bean.Props.C57_history",
    "Bean.Props.C57_partial",
    "Bean.Props.C57_no_id",
    "Bean.Props.C57_systypes",
    "Bean.Props.C57_base",
    "Bean.Props.C57_by_id"
   ],
   "note": "Keys determine build identifier and eight options (C57_key), each answer is fresh, from the initial cache or from an earlier request with this key (C57_history), hence right if results are functions of the key (C57_partial). The negation for files without build identifier, for the option for system types and for the base directory is proved. C57_by_id covers requests by build identifier."
  },
  {
   "property": "C58",
   "status": "partial",
   "theorems": [
    "Bean.Props.C58_sequential",
    "Bean.Props.C58_one_client",
    "Bean.Props.C58_split",
    "Bean.Props.C58_cache_partial",
    "Bean.Props.C58_by_id",
    "Bean.Props.C58_id_lines"
   ],
   "note": "For arbitrary clients, chunks and partial writes: all answers are those of a sequential order of the requests (C58_sequential), determined by the bytes for a single client (C58_one_client) and for answers that are independent of other requests (C58_split), in particular for requests of paths with the cache of C57 (C58_cache_partial). Requests for build identifiers depend on other clients (C58_by_id). Which lines ask for identifiers: C58_id_lines."
  },
  {
   "property": "C59",
   "status": "partial",
   "theorems": [
    "Bean.Props.C59_reasons",
    "Bean.Props.C59_non_ascii",
    "Bean.Props.C59_half_close",
    "Bean.Props.C59_partial"
   ],
   "note": "The property is false: C59_non_ascii (two bytes of any client end the daemon at any time) and C59_half_close. C59_reasons lists exactly the events that end it; C59_partial shows that it goes on otherwise. Blocking inside of the handler (e.g. opening a FIFO) is not modelled."
  },
  {
   "property": "C60",
   "status": "proved",
   "theorems": [
    "Bean.Props.C60_objects"
   ],
   "note": "For all directory contents and patterns; glob and regular expressions are parameters."
  },
  {
   "property": "C61",
   "status": "proved",
   "theorems": [
    "Bean.Props.C61_unchanged_mapped"
   ],
   "note": "The exception for ambiguous targets is the defect of C19."
  },
  {
   "property": "C62",
   "status": "proved",
   "theorems": [
    "Bean.C62_files",
    "Bean.C62_end_marker",
    "Bean.Props.C62_no_fault",
    "Bean.Props.C62_tiny_counterexample"
   ],
   "note": "C62_files: for results of the analysis, with functions that have an instruction. The size hypothesis is needed: C62_tiny_counterexample; with the flag to keep unused symbols the marker at the end of a code section makes the assertion fail for real files (C62_end_marker)."
  },
  {
   "property": "C63",
   "status": "proved",
   "theorems": [
    "Bean.Props.C63_change_reason",
    "Bean.Props.C63_message_reason"
   ],
   "note": ""
  },
  {
   "property": "C64",
   "status": "partial",
   "theorems": [
    "Bean.Props.C64_conditional_partial",
    "Bean.Props.C64_counterexample"
   ],
   "note": "False for relocations that are not branches inside of a function: C64_counterexample. Proved for conditional branches inside of a function."
  },
  {
   "property": "C65",
   "status": "partial",
   "theorems": [
    "Bean.C65_files_partial",
    "Bean.C65_relocations_partial",
    "Bean.C65_tls",
    "Bean.C65_counterexample"
   ],
   "note": "Proved for symbols with regular addresses. C65_counterexample: packed relative relocations of thread-local data are never attached (C65_tls)."
  },
  {
   "property": "C66",
   "status": "partial",
   "theorems": [
    "Bean.C66_files_partial",
    "Bean.C66_files_counterexample",
    "Bean.C66_tls_partial",
    "Bean.C66_doubled",
    "Bean.C66_counterexample"
   ],
   "note": "Location, target, type and name are right (C66_tls_partial), but the addend is the distance itself, so that applying the relocation for a named variable gives twice the distance (C66_doubled, C66_counterexample). For results of the complete analysis: C66_files_partial, C66_files_counterexample."
  },
  {
   "property": "C67",
   "status": "partial",
   "theorems": [
    "Bean.C67_files_partial",
    "Bean.C67_access_partial"
   ],
   "note": "Same restriction as C44 (C44_counterexample: an unconditional call is marked conditional). For results of the complete analysis: C67_files_partial."
  },
  {
   "property": "C68",
   "status": "proved",
   "theorems": [
    "Bean.C68_files",
    "Bean.C68_position_independent"
   ],
   "note": "For all pairs of analysed files; the hash function is a parameter."
  },
  {
   "property": "C69",
   "status": "proved",
   "theorems": [
    "Bean.C69_found",
    "Bean.C69_only"
   ],
   "note": "For every sequence of decoded instructions (the decoder is a parameter); decoding stops at bytes that are no instruction, as in the code. The two theorems leave open only starts behind an end of code where an earlier jump of a previous function leads over them. For results of the analysis of a file see C94."
  },
  {
   "property": "C70",
   "status": "partial",
   "theorems": [
    "Bean.C70_inside_partial",
    "Bean.C70_counterexample"
   ],
   "note": "False as stated: a call with a target behind the end of the closest executable section creates a symbol outside of all sections (C70_counterexample). C70_inside_partial: holds if no call leaves the section found for its target, without thread local code sections."
  },
  {
   "property": "C71",
   "status": "proved",
   "theorems": [
    "Bean.C71_no_abort",
    "Bean.C71_slot_counterexample",
    "Bean.C71_writeable_code"
   ],
   "note": "Conditions on the file are explicit (PlainCode); they include files whose PLT sections are named (-a) as long as every jump in there goes to a relocated slot. C71_writeable_code shows that the assertion fails for sections with writeable code, C71_slot_counterexample that a jump without relocation in a named PLT section aborts debug builds and is undefined in release builds."
  },
  {
   "property": "C72",
   "status": "proved",
   "theorems": [
    "Bean.C72_wellformed",
    "Bean.C72_coverage",
    "Bean.C72_coverage_default",
    "Bean.C72_coverage_code"
   ],
   "note": "For the model of the complete run (all phases). C72_coverage_default: without the flag to keep unused symbols the memory of unnamed symbols without references is not covered. C72_coverage_code: in each case only ranges with nothing but NOPs are left out."
  },
  {
   "property": "C73",
   "status": "partial",
   "theorems": [
    "Bean.C73_declared_partial",
    "Bean.C73_untyped",
    "Bean.C73_import_counterexample",
    "Bean.C73_all_partial"
   ],
   "note": "False as stated: if an untyped symbol is at the same address, a later function or object is not inserted (C73_untyped: emplace into the tree keeps the old symbol); if attributes are part of the identifiers, the name of an imported function replaces the declared name of a function in a `.plt.` section (C73_import_counterexample). C73_declared_partial, C73_all_partial (also for thread-local symbols): holds if no untyped symbol is declared at this address, sizes do not wrap around, and unused symbols are kept or the symbol has a name; the name remains unless the address is that of code in a `.plt.` section whose functions get the names of imported ones."
  },
  {
   "property": "C74",
   "status": "partial",
   "theorems": [
    "Bean.C74_root",
    "Bean.C74_directory_partial",
    "Bean.C74_sibling"
   ],
   "note": "False as stated: the test whether the file is below the root directory compares a prefix without separator (C74_sibling). C74_directory_partial: holds for files below the root directory."
  },
  {
   "property": "C75",
   "status": "partial",
   "theorems": [
    "Bean.Props.C75_settings",
    "Bean.Props.C75_mode_partial",
    "Bean.Props.C75_defined",
    "Bean.Props.C75_counterexample",
    "Bean.Props.C75_files",
    "Bean.Props.C75_verbose",
    "Bean.Props.C75_verbose_counterexample"
   ],
   "note": "False for more than three letters i (C75_counterexample: conversion to an enumeration outside of its range). C75_settings for all runs that go on; C75_mode_partial, C75_defined, C75_files. C75_verbose: the level of details is the number of letters v modulo 256, hence 256 letters v are like none (C75_verbose_counterexample). For the opening of files see C132 to C134."
  },
  {
   "property": "C76",
   "status": "proved",
   "theorems": [
    "Bean.Props.C76_edges"
   ],
   "note": "For nodes and edges of symbols; the nodes for imports and the entry point are not modelled."
  },
  {
   "property": "C77",
   "status": "partial",
   "theorems": [
    "Bean.Props.C77_lines_partial",
    "Bean.Props.C77_hang",
    "Bean.Props.C77_unterminated"
   ],
   "note": "False as stated: C77_hang, the loop does not end if the text has an empty line; C77_unterminated: a null character is printed for a last line without newline. C77_lines_partial: texts without empty lines. The text itself (disassembly) is not modelled."
  },
  {
   "property": "C78",
   "status": "partial",
   "theorems": [
    "Bean.Props.C78_map_names",
    "Bean.Props.C78_update_names"
   ],
   "note": "False: C78_map_names (names are never used by bean-map), C78_update_names (bean-update-code uses them iff the option is given)."
  },
  {
   "property": "C79",
   "status": "partial",
   "theorems": [
    "Bean.Props.C79_print_partial",
    "Bean.Props.C79_empty",
    "Bean.Props.C79_no_tree"
   ],
   "note": "False for results without symbols (C79_empty) and single symbols printed with the default argument (C79_no_tree); C79_print_partial for all others. Columns and texts are not modelled."
  },
  {
   "property": "C80",
   "status": "partial",
   "theorems": [
    "Bean.Props.C80_assertion",
    "Bean.Props.C80_merge",
    "Bean.Props.C80_order",
    "Bean.Props.C80_duplicates"
   ],
   "note": "C80_assertion, C80_merge and C80_order hold for all lists. As names only have to be prefixes, a variable of the symbol table may get the type of another one and appear twice (C80_duplicates)."
  },
  {
   "property": "C81",
   "status": "partial",
   "theorems": [
    "Bean.Props.C81_layout",
    "Bean.Props.C81_names"
   ],
   "note": "Holds without names in the text and for type hashes free of the delimiters (C81_layout). With names it is false (C81_names)."
  },
  {
   "property": "C82",
   "status": "partial",
   "theorems": [
    "Bean.Props.C82_one_line",
    "Bean.Props.C82_count",
    "Bean.Props.C82_crlf"
   ],
   "note": "C82_one_line and C82_count hold for line feeds; lines ended by carriage return and line feed count as two requests (C82_crlf)."
  },
  {
   "property": "C83",
   "status": "partial",
   "theorems": [
    "Bean.Props.C83_verdict",
    "Bean.Props.C83_update_partial",
    "Bean.Props.C83_missing"
   ],
   "note": "C83_verdict describes the verdict; the property holds if hashes of both versions are available (C83_update_partial), and is false otherwise (C83_missing)."
  },
  {
   "property": "C84",
   "status": "partial",
   "theorems": [
    "Bean.Props.C84_modes",
    "Bean.Props.C84_bound",
    "Bean.Props.C84_summary",
    "Bean.Props.C84_single"
   ],
   "note": "C84_modes and C84_bound hold; the summary exists exactly for two versions or more (C84_summary), a single version leads to a division by zero (C84_single)."
  },
  {
   "property": "C85",
   "status": "partial",
   "theorems": [
    "Bean.Props.C85_form_counterexample",
    "Bean.Props.C85_order",
    "Bean.Props.C85_succeeds"
   ],
   "note": "C85_order, C85_succeeds for sizes that are stored in a form taken as a number (DW_FORM_data1, 2, 4, 8); false for other forms, such as DW_FORM_implicit_const, where the order and the other requests matter (C85_form_counterexample, C137)."
  },
  {
   "property": "C86",
   "status": "partial",
   "theorems": [
    "Bean.Props.C86_ends_partial",
    "Bean.Props.C86_circle",
    "Bean.Props.C86_counterexample"
   ],
   "note": "C86_ends_partial holds for entries that do not need themselves; circles never end (C86_circle), in particular a struct with a reference to itself or a static member of its own type (C86_counterexample)."
  },
  {
   "property": "C87",
   "status": "partial",
   "theorems": [
    "Bean.Props.C87_bits_counterexample",
    "Bean.Props.C87_parts_partial",
    "Bean.Props.C87_same",
    "Bean.Props.C87_alias",
    "Bean.Props.C87_counterexample"
   ],
   "note": "C87_parts_partial (with names off): equal hashes mean equal parts or a collision of the digest of two different texts; conversely equal parts have equal hashes (C87_same), aliases make no difference (C87_alias). Sizes of base types do not enter the hash (C87_counterexample), nor do numbers and offsets of bits (C87_bits_counterexample)."
  },
  {
   "property": "C88",
   "status": "proved",
   "theorems": [
    "Bean.C88_code",
    "Bean.C88_data"
   ],
   "note": "Stated for results of the complete analysis in terms of the contents of the files; for data in segments that are ordered by offset and address (see C39), and for a decoder whose results move along with the code (MovesWith)."
  },
  {
   "property": "C89",
   "status": "proved",
   "theorems": [
    "Bean.C89_targets",
    "Bean.C89_default",
    "Bean.C89_dropped"
   ],
   "note": "C89_targets with the flag to keep unused symbols, C89_default without; C89_dropped: a pointer to padding has no symbol."
  },
  {
   "property": "C90",
   "status": "proved",
   "theorems": [
    "Bean.C90_entry",
    "Bean.C90_missing"
   ],
   "note": "C90_missing: if the symbol tables have no symbol at the entry point, no symbol is marked."
  },
  {
   "property": "C91",
   "status": "partial",
   "theorems": [
    "Bean.C91_marked_partial",
    "Bean.C91_elsewhere",
    "Bean.C91_data"
   ],
   "note": "False as stated: an endbr anywhere in the function sets the mark (C91_elsewhere: the redirect is placed within an instruction). Proved: the mark is set iff there is an endbr in the relevant part of the function, never for data."
  },
  {
   "property": "C92",
   "status": "partial",
   "theorems": [
    "Bean.C92_sound",
    "Bean.C92_jump",
    "Bean.C92_tables_partial",
    "Bean.C92_unmarked",
    "Bean.C92_tail_call"
   ],
   "note": "Soundness as stated (C92_sound), completeness for jumps (C92_jump) and for functions of the symbol table (C92_tables_partial). Other symbols in these tables are not marked (C92_unmarked). Functions that only consist of a tail call are trampolines, a change of their target gets lost in an update (C92_tail_call)."
  },
  {
   "property": "C93",
   "status": "partial",
   "theorems": [
    "Bean.C93_file_partial",
    "Bean.C93_completes_partial",
    "Bean.C93_located",
    "Bean.C93_counterexample"
   ],
   "note": "C93_file_partial: completion from conditions on the file alone (readable tables; marks, entries, calls and pointers inside of sections; sections inside of segments; relocations not cut by symbols; for the reconstruction a named entry in front of all targets). C93_completes_partial: the same with a condition on the gathered symbols, which is necessary for debug builds (C93_located). Files with names for the procedure linkage table (-a) are included. Missing: files which do not meet the conditions; some well-formed ones do not: the end of a RELRO region behind the last section of its kind aborts the analysis (C93_counterexample)."
  },
  {
   "property": "C94",
   "status": "proved",
   "theorems": [
    "Bean.C94_only",
    "Bean.C94_only_kept",
    "Bean.C94_found",
    "Bean.C94_found_default"
   ],
   "note": "For files whose loaded sections start at different addresses. If unused symbols are kept, the reasons are stated for the result itself (C94_only_kept), otherwise for a superset of its symbols (C94_only). Pointers are covered by C89_targets and C89_default. As in C69, instructions behind the end of a function are expected to have a symbol only if no jump in front leads to or over them."
  },
  {
   "property": "C95",
   "status": "partial",
   "theorems": [
    "Bean.Props.C95_inherited_partial",
    "Bean.Props.C95_ends_partial",
    "Bean.Props.C95_circle",
    "Bean.Props.C95_declared_partial",
    "Bean.Props.C95_counterexample",
    "Bean.Props.C95_order"
   ],
   "note": "C95_inherited_partial requires that references to origins count from the start of the section or that the unit is the first one; a reference of a later unit is taken for one of the first unit (C95_counterexample). C95_ends_partial holds without circles, which exhaust the recursion (C95_circle). C95_declared_partial covers entries with all or none of file, line and column; for others the place depends on the order of entries (C95_order)."
  },
  {
   "property": "C96",
   "status": "partial",
   "theorems": [
    "Bean.Props.C96_static",
    "Bean.Props.C96_tls_partial",
    "Bean.Props.C96_disjoint",
    "Bean.Props.C96_listed",
    "Bean.Props.C96_counterexample",
    "Bean.Props.C96_no_base",
    "Bean.Props.C96_declared_counterexample"
   ],
   "note": "C96_static is complete for location expressions of valid operations, C96_listed for lists of entries (in terms of get_loc). C96_tls_partial describes the places taken for thread-local ones; these include constants without the operation for thread-local addresses, and the GNU name of this operation is not known (C96_counterexample). Location lists of a unit without base address make the whole list fail (C96_no_base). Locations with typed constants or an unreadable expression are not covered by the exactness theorems. Variables declared before their definition have no type of their own and are missing (C96_declared_counterexample)."
  },
  {
   "property": "C97",
   "status": "partial",
   "theorems": [
    "Bean.Props.C97_base",
    "Bean.Props.C97_symbol_partial",
    "Bean.Props.C97_debug_partial",
    "Bean.Props.C97_agree",
    "Bean.Props.C97_unmapped",
    "Bean.Props.C97_complete",
    "Bean.Props.C97_writable",
    "Bean.Props.C97_counterexample",
    "Bean.Props.C97_lost",
    "Bean.Props.C97_mismatch",
    "Bean.Props.C97_tls_align"
   ],
   "note": "C97_base holds for all files. C97_symbol_partial and C97_debug_partial give the position for arranged segments and variables that do not end exactly at the end of the protected memory (else they are said to be writable, C97_counterexample); C97_agree needs no such condition. C97_complete: all variables are listed if their sections are part of segments; a single other one makes the summary fail (C97_unmapped). Variables of equal name and offset in two segments of the same permissions: one is lost (C97_lost). C97_mismatch: the summary may fail for a sound file; C97_tls_align: alignment of thread-local variables depends on the source. C97_writable: the option for writable variables selects categories, nothing else."
  },
  {
   "property": "C98",
   "status": "partial",
   "theorems": [
    "Bean.Props.C98_exported",
    "Bean.Props.C98_order",
    "Bean.Props.C98_names",
    "Bean.Props.C98_declared_partial",
    "Bean.Props.C98_listed",
    "Bean.Props.C98_debug_order_partial",
    "Bean.Props.C98_alias",
    "Bean.Props.C98_last",
    "Bean.Props.C98_missing",
    "Bean.Props.C98_absent",
    "Bean.Props.C98_ambiguous",
    "Bean.Props.C98_base",
    "Bean.Props.C98_functions"
   ],
   "note": "C98_exported, C98_order, C98_names, C98_base, C98_functions and C98_listed hold without further conditions. C98_declared_partial needs that no other name is exported for the address (else only the first name counts, C98_alias) and that all functions of the name have the same declaration (else the last one counts, C98_last); likewise C98_debug_order_partial. Exported functions without debug information do not count as soon as there is debug information (C98_missing); without debug information different exports can have the same hashed text (C98_ambiguous). C98_absent: when there is no hash of functions."
  },
  {
   "property": "C99",
   "status": "partial",
   "theorems": [
    "Bean.Props.C99_types",
    "Bean.Props.C99_first",
    "Bean.Props.C99_order_partial",
    "Bean.Props.C99_text",
    "Bean.Props.C99_counterexample",
    "Bean.Props.C99_lost"
   ],
   "note": "C99_types, C99_first and C99_text (the hashed text determines the hashes in the summary) hold without further conditions. C99_order_partial needs that types of one identifier have the same hash. This is not the case: references and volatile types have the identifier of the type they refer to, so the order makes a difference (C99_counterexample), and changes of a type can go unnoticed (C99_lost)."
  },
  {
   "property": "C100",
   "status": "partial",
   "theorems": [
    "Bean.C100_symbols_partial",
    "Bean.C100_identifiers_partial",
    "Bean.C100_unchanged_partial",
    "Bean.C100_counterexample",
    "Bean.C100_unanchored_counterexample",
    "Bean.C100_reconstructed_symbols_partial",
    "Bean.C100_reconstructed_identifiers_partial",
    "Bean.C100_reconstructed_unchanged_partial",
    "Bean.C100_positions_counterexample"
   ],
   "note": "Holds for addresses below 2^51 (Rebasable), symbols whose data differs only at relocated places that do not overlap (Steady), and references that lead behind a symbol of their address space (Anchored). The decoder has to move along (MovesWith); with reconstruction of relocations it also has to report displacements inside the instruction (SaneDecoder), and accesses in code have to be anchored as well (CodeAnchored). Identifiers of positions are only covered without reconstruction; with it the statement is false for them (C100_positions_counterexample). Without resolved relocations the address of a resolver of an indirect function counts for the identifier (C100_counterexample), and so does an address in front of all symbols (C100_unanchored_counterexample)."
  },
  {
   "property": "C101",
   "status": "partial",
   "theorems": [
    "Bean.Props.C101_sizes_partial",
    "Bean.Props.C101_text_partial",
    "Bean.Props.C101_succeeds_partial",
    "Bean.Props.C101_types_partial",
    "Bean.Props.C101_array_counterexample",
    "Bean.Props.C101_options_counterexample",
    "Bean.Props.C101_count_counterexample"
   ],
   "note": "Holds with names and aliases if arrays have bounds and are directly the type of named entries or pointers (C101_sizes_partial, C101_text_partial, C101_succeeds_partial). Behind `const` or a typedef the number of elements is multiplied twice (C101_array_counterexample); without names arrays fail an assertion, without aliases variables are missing (C101_options_counterexample). Sizes of types (C101_types_partial) hold for all options but not for arrays stored with their number of elements, as clang does; these have the same hash for all lengths (C101_count_counterexample)."
  },
  {
   "property": "C102",
   "status": "partial",
   "theorems": [
    "Bean.Props.C102_plain_partial",
    "Bean.Props.C102_refused",
    "Bean.Props.C102_only",
    "Bean.Props.C102_nothing_found_partial",
    "Bean.Props.C102_debug_counterexample",
    "Bean.Props.C102_root_counterexample"
   ],
   "note": "Holds without debug symbols, for roots that are not empty and paths of at most 4096 characters (C102_plain_partial, C102_refused), and if no debug file is found (C102_nothing_found_partial, if the streams accept null pointers). If one is found, its path belongs to an object that does not exist any more: undefined behaviour for all files (C102_debug_counterexample); debug symbols never contribute to a defined result (C102_only). An empty root is undefined for missing files (C102_root_counterexample)."
  },
  {
   "property": "C103",
   "status": "proved",
   "theorems": [
    "Bean.Props.C103_jobs",
    "Bean.Props.C103_complete",
    "Bean.Props.C103_success"
   ],
   "note": "C103_jobs (each file that is opened and its settings), C103_complete (no file is left out), C103_success. The level of verbosity is a byte, so 256 letters v count as none. An option with a value at the end of the command line has no value and no effect."
  },
  {
   "property": "C104",
   "status": "partial",
   "theorems": [
    "Bean.C104_plain",
    "Bean.C104_entry_partial",
    "Bean.C104_extern_partial",
    "Bean.C104_weak_counterexample",
    "Bean.C104_label_counterexample",
    "Bean.C104_entry_counterexample"
   ],
   "note": "Holds for global symbols without untyped entries at the same address (C104_extern_partial) and if there is a symbol at the entry point (C104_entry_partial); the other lines stay the same (C104_plain). Weak (and unique) symbols get no edge (C104_weak_counterexample), nor do global functions behind a local label at the same address (C104_label_counterexample); an entry point without symbol is not marked (C104_entry_counterexample)."
  },
  {
   "property": "C105",
   "status": "partial",
   "theorems": [
    "Bean.Props.C105_read_ids",
    "Bean.Props.C105_read_rows",
    "Bean.Props.C105_read_names_partial",
    "Bean.Props.C105_ids",
    "Bean.Props.C105_rows",
    "Bean.Props.C105_names_partial",
    "Bean.Props.C105_names_counterexample",
    "Bean.Props.C105_break_counterexample"
   ],
   "note": "Lines read back: identifiers C105_read_ids, facts C105_read_rows (names without line breaks), names and sections C105_read_names_partial (names that are words not starting with a parenthesis); equal listings only for equal facts: C105_ids, C105_rows, C105_names_partial. Otherwise lines can be read in two ways (C105_names_counterexample), and a name with a line break can pose as further symbols (C105_break_counterexample)."
  },
  {
   "property": "C106",
   "status": "partial",
   "theorems": [
    "Bean.Props.C106_read_partial",
    "Bean.Props.C106_read_reference",
    "Bean.Props.C106_line_partial",
    "Bean.Props.C106_import_counterexample",
    "Bean.Props.C106_target_counterexample",
    "Bean.Props.C106_relative_counterexample",
    "Bean.Props.C106_break_counterexample",
    "Bean.Props.C106_reference"
   ],
   "note": "References: C106_reference, C106_read_reference. Relocations with a symbol in front of the target: C106_line_partial, C106_read_partial. The names of imports are never shown (C106_import_counterexample), targets in front of all symbols look like addends (C106_target_counterexample), name and addend of relative relocations denote another address (C106_relative_counterexample), and types without name break the line (C106_break_counterexample)."
  },
  {
   "property": "C107",
   "status": "partial",
   "theorems": [
    "Bean.Props.C107_read",
    "Bean.Props.C107_lossless",
    "Bean.Props.C107_verdict",
    "Bean.Props.C107_failure",
    "Bean.Props.C107_sections_partial",
    "Bean.Props.C107_sections_counterexample"
   ],
   "note": "Text: C107_read, C107_lossless (for truth values written as words or as digits, since the library for streams is not part of the source). Verdict: C107_verdict, C107_failure. Marks of categories: C107_sections_partial, for total sizes below 2^64; beyond that the sum may be zero (C107_sections_counterexample)."
  },
  {
   "property": "C108",
   "status": "partial",
   "theorems": [
    "Bean.Props.C108_report_partial",
    "Bean.Props.C108_names_counterexample",
    "Bean.Props.C108_options",
    "Bean.Props.C108_path_counterexample",
    "Bean.Props.C108_arguments"
   ],
   "note": "C108_report_partial, for the levels without disassembly, names that are single words and disjoint symbols that contain all their relocated instructions. The settings are those of the options (C108_options, C108_arguments). With blanks in names the same line stands for different targets (C108_names_counterexample). For one file and two directories with debug symbols the program prints a null pointer (C108_path_counterexample)."
  },
  {
   "property": "C109",
   "status": "partial",
   "theorems": [
    "Bean.Props.C109_settings_partial",
    "Bean.Props.C109_pairs",
    "Bean.Props.C109_calls_partial",
    "Bean.Props.C109_dash_counterexample"
   ],
   "note": "C109_settings_partial (paths that do not start with a dash) , C109_calls_partial (all calls for an object) and C109_pairs. With a directory whose name starts with a dash, the files are taken for unknown options and the program fails (C109_dash_counterexample)."
  },
  {
   "property": "C110",
   "status": "partial",
   "theorems": [
    "Bean.Props.C110_diff_ids",
    "Bean.Props.C110_diff_rows",
    "Bean.Props.C110_map_ids_partial",
    "Bean.Props.C110_map_rows_partial",
    "Bean.Props.C110_path_counterexample"
   ],
   "note": "C110_diff_ids, C110_diff_rows, C110_map_ids_partial, C110_map_rows_partial for the levels without disassembly, names and paths without line breaks. For one file and two directories with debug symbols bean-map prints a null pointer (C110_path_counterexample)."
  },
  {
   "property": "C111",
   "status": "partial",
   "theorems": [
    "Bean.C111_names_partial",
    "Bean.C111_unmarked_counterexample"
   ],
   "note": "C111_names_partial for entries that start with a marker for indirect branches (.plt.sec), executable sections that do not overlap, and slots with a single relocation. Entries without marker (.plt.got of files built without indirect-branch tracking) belong to the first one, which gets the name of the last function (C111_unmarked_counterexample)."
  },
  {
   "property": "C112",
   "status": "partial",
   "theorems": [
    "Bean.Props.C112_read_partial",
    "Bean.Props.C112_loop_counterexample",
    "Bean.Props.C112_conditional_counterexample",
    "Bean.Props.C112_line_counterexample",
    "Bean.Props.C112_empty_counterexample"
   ],
   "note": "C112_read_partial for names and sections that are words, relocations to symbols, and debug texts without empty lines (and without lines that look like the following entries). An empty line in the debug text (name with two line breaks) makes the output endless (C112_loop_counterexample); a conditional branch is not shown as such (C112_conditional_counterexample); without BEAN_VERBOSE there is no line break behind the name (C112_line_counterexample). Without symbols the behaviour is undefined (C112_empty_counterexample). Attributes of the terminal are left out."
  },
  {
   "property": "C113",
   "status": "partial",
   "theorems": [
    "Bean.Props.C113_bytes",
    "Bean.Props.C113_text",
    "Bean.Props.C113_relocations_partial",
    "Bean.Props.C113_plain",
    "Bean.Props.C113_listing_partial",
    "Bean.Props.C113_twice_counterexample",
    "Bean.Props.C113_lost_counterexample"
   ],
   "note": "C113_bytes, C113_text and C113_plain hold for all symbols that do not reach the end of the address space (names without line breaks). C113_relocations_partial: relocations of nonzero size that do not overlap, and no relocation starts at the last byte of the previous line; otherwise it is listed again (C113_twice_counterexample). After a relocation without size no relocation is mentioned any more (C113_lost_counterexample). C113_listing_partial: with C112, the detailed listing of data can be read back. The debug text is written to a buffer of 1 MiB, which is not modelled, neither are attributes of the terminal."
  },
  {
   "property": "C114",
   "status": "partial",
   "theorems": [
    "Bean.Props.C114_lines_partial",
    "Bean.Props.C114_bytes_partial",
    "Bean.Props.C114_references_partial",
    "Bean.Props.C114_plain",
    "Bean.Props.C114_listing_partial",
    "Bean.Props.C114_long_counterexample",
    "Bean.Props.C114_zero_counterexample",
    "Bean.Props.C114_both_counterexample"
   ],
   "note": "C114_plain holds for all functions (names are words, texts of capstone fit to the operands). C114_lines_partial and C114_bytes_partial: only the first twelve bytes of an instruction are shown (C114_long_counterexample). C114_references_partial: a reference to the address zero has no note (C114_zero_counterexample), and an operand that uses both the segment of the thread-local storage and the instruction pointer has a note for one of its two references only (C114_both_counterexample). C114_listing_partial: with C112 and C113, the detailed listing with debug texts of functions and data can be read back. Attributes of the terminal and the limit of the buffer are not modelled; the splitting of operands in dlh is assumed to be exact."
  },
  {
   "property": "C115",
   "status": "partial",
   "theorems": [
    "Bean.Props.C115_settings_partial",
    "Bean.Props.C115_own_partial",
    "Bean.Props.C115_nodebug_partial",
    "Bean.Props.C115_without_partial",
    "Bean.Props.C115_files_partial",
    "Bean.Props.C115_skip_counterexample",
    "Bean.Props.C115_nodebug_counterexample",
    "Bean.Props.C115_own_counterexample",
    "Bean.Props.C115_blank_counterexample"
   ],
   "note": "C115_settings_partial: exact commands for all sequences of prefixes, socket and directories (words without blanks), with neither -N nor own options. C115_own_partial: own options are passed, but default options as well (C115_own_counterexample). C115_nodebug_partial, C115_without_partial: with -N as last argument or NODEBUG=1 another cache is used and -d is not passed; with own options it is (C115_nodebug_counterexample). If -N is not the last argument, the following one is lost (C115_skip_counterexample). C115_files_partial: exactly the shared objects, for names without blanks (C115_blank_counterexample). Semantics of bash (splitting of words, arrays, unset index) is part of the model; no pathname expansion."
  },
  {
   "property": "C116",
   "status": "partial",
   "theorems": [
    "Bean.Props.C116_buildid_partial",
    "Bean.Props.C116_link_partial",
    "Bean.Props.C116_size_counterexample",
    "Bean.Props.C116_two_counterexample",
    "Bean.Props.C116_owner_counterexample",
    "Bean.Props.C116_ascii_counterexample"
   ],
   "note": "C116_buildid_partial: same text for all files whose notes of number 3 are GNU identifiers of 17 to 20 bytes, outside of sections with link or comment (dbgsym.py on its own: if only one section has an identifier). Otherwise it fails: other sizes (C116_size_counterexample), several sections (C116_two_counterexample), notes of other owners, also with names of other lengths (C116_owner_counterexample). C116_link_partial: same link for all files without debug sections if link and comment are ASCII (dbgsym.py: if there is one link); the tools fail for other characters (C116_ascii_counterexample). Note parsing of elftools is assumed as stated in the model."
  },
  {
   "property": "C117",
   "status": "partial",
   "theorems": [
    "Bean.Props.C117_file_partial",
    "Bean.Props.C117_base_counterexample",
    "Bean.Props.C117_debug_partial",
    "Bean.Props.C117_extern_counterexample",
    "Bean.Props.C117_outside_counterexample",
    "Bean.Props.C117_dwarf_partial",
    "Bean.Props.C117_dwarf_counterexample"
   ],
   "note": "C117_file_partial: the first existing path of the two; absolute names are never looked up below the base directory (C117_base_counterexample). C117_debug_partial: debug symbols iff -d, from the right place, for files within the base directory; outside of it the analysis fails for every file (C117_outside_counterexample); -D alone has no effect although documented to imply -d (C117_extern_counterexample). C117_dwarf_partial: dwarfvars.py reads the given file if it is within the base directory or there is none; otherwise another file or none (C117_dwarf_counterexample). Not modelled: downloads and their cache, an empty link, opening by argparse."
  },
  {
   "property": "C118",
   "status": "partial",
   "theorems": [
    "Bean.Props.C118_more_partial",
    "Bean.Props.C118_error_counterexample",
    "Bean.Props.C118_changes_partial",
    "Bean.Props.C118_amounts",
    "Bean.Props.C118_verdict",
    "Bean.Props.C118_hashes",
    "Bean.Props.C118_names",
    "Bean.Props.C118_size_counterexample",
    "Bean.Props.C118_hash_counterexample"
   ],
   "note": "C118_more_partial: the text is a subsequence of the one for a higher level, if the result is empty or has a verdict; otherwise an error is shown without verbosity only (C118_error_counterexample). C118_changes_partial: exact content for the first level (results with a verdict). C118_amounts: amounts behind each category for all higher levels. Changes of symbols without size are never shown (C118_size_counterexample, for all numbers), nor hashes that only the base has although they cause the restart (C118_hash_counterexample, for all levels). Styles and layout of the table are not modelled. The verdict (C118_verdict), the hashes of debug symbols (C118_hashes) and their names (C118_names) are shown as stated at all levels."
  },
  {
   "property": "C119",
   "status": "proved",
   "theorems": [
    "Bean.Props.C119_percent",
    "Bean.Props.C119_all_counterexample",
    "Bean.Props.C119_settings",
    "Bean.Props.C119_sentence",
    "Bean.Props.C119_calls"
   ],
   "note": "C119_percent, C119_settings, C119_sentence, C119_calls (same sentence, same options for the program). Note C119_all_counterexample: 100% may be shown although a version cannot be updated; this is rounding as stated. The quotient of floating-point numbers is taken as exact; markup is left out."
  },
  {
   "property": "C120",
   "status": "partial",
   "theorems": [
    "Bean.Props.C120_file_partial",
    "Bean.Props.C120_relative_counterexample",
    "Bean.Props.C120_without_partial",
    "Bean.Props.C120_directory_counterexample",
    "Bean.Props.C120_system_partial",
    "Bean.Props.C120_dots_counterexample"
   ],
   "note": "C120_file_partial: the file according to the standard, for all versions, if there is a directory of compilation and all other directories are absolute or start with a dot. Other relative directories are not completed (C120_relative_counterexample); without directory of compilation the names are right if all directories are absolute and no file refers to the missing one (C120_without_partial), otherwise there is no name before version 5 (C120_directory_counterexample). C120_system_partial: recognition of system headers for plainly written absolute paths; with .. it fails in both directions (C120_dots_counterexample). Access to the line program by elftools is assumed as stated in the model."
  },
  {
   "property": "C121",
   "status": "partial",
   "theorems": [
    "Bean.Props.C121_order",
    "Bean.Props.C121_line_partial",
    "Bean.Props.C121_name_counterexample",
    "Bean.Props.C121_json_counterexample",
    "Bean.Props.C121_quote",
    "Bean.Props.C121_repr",
    "Bean.Props.C121_types_partial",
    "Bean.Props.C121_globals",
    "Bean.Props.C121_functions_partial",
    "Bean.Props.C121_total_counterexample",
    "Bean.Props.C121_listed"
   ],
   "note": "C121_order: one line per variable, sorted by address, stable. C121_line_partial: lines determine the variable if names contain no blanks and parentheses (otherwise C121_name_counterexample). C121_json_counterexample: the output with the option for JSON is JSON if and only if there is no variable; C121_repr: as a representation by Python it tells all members of all variables (C121_quote: Python's representation of texts, characters outside of ASCII taken as printable). C121_types_partial: lines of types determine the list; the last hash determines the sequence of hashes if it has no collision for the two texts; it depends on the order (C121_total_counterexample). C121_globals, C121_functions_partial: lines of definitions and functions; the latter for names and results without parentheses. C121_listed: lines of the types, in order."
  },
  {
   "property": "C122",
   "status": "partial",
   "theorems": [
    "Bean.Props.C122_assertions",
    "Bean.Props.C122_machine",
    "Bean.Props.C122_release_partial",
    "Bean.Props.C122_empty_counterexample",
    "Bean.Props.C122_foreign_counterexample"
   ],
   "note": "C122_assertions: exact condition for builds with assertions (files for 386, 486 and x86-64, of both classes); C122_machine: no other machine. C122_release_partial: without assertions no header is checked. False without assertions: files of other machines (or any file, if capstone cannot be initialised) have an empty result, so that each can update each other (C122_empty_counterexample). False in all builds for debug symbols of another build of the same kind of file, as neither build identifier nor checksum are compared (C122_foreign_counterexample)."
  },
  {
   "property": "C123",
   "status": "partial",
   "theorems": [
    "Bean.Props.C123_verdict",
    "Bean.Props.C123_kept",
    "Bean.Props.C123_init",
    "Bean.Props.C123_moved_counterexample",
    "Bean.Props.C123_removed_counterexample",
    "Bean.Props.C123_shared_counterexample"
   ],
   "note": "C123_verdict: exact condition of approval without dependencies (and a necessary one with them) in terms of counterparts, for each mode. C123_kept: end-to-end statement for two analysed files, under the condition that the hash does not confuse the two texts in question and, if attributes are part of identifiers, that they agree. C123_init: the same for code in sections for initialisation. Not covered by approval: addresses (a variable may be moved by whole pages, C123_moved_counterexample), variables of the old version that are missing in the new one (C123_removed_counterexample), and several variables that share a counterpart (C123_shared_counterexample)."
  },
  {
   "property": "C124",
   "status": "partial",
   "theorems": [
    "Bean.Props.C124_objects",
    "Bean.Props.C124_others",
    "Bean.Props.C124_compared_partial",
    "Bean.Props.C124_hidden_counterexample",
    "Bean.Props.C124_order"
   ],
   "note": "C124_objects, C124_others: exact content of the tree, with multiplicity; C124_order: order within each directory. C124_compared_partial: all compared objects are shown, unless they or their directories are hidden; these are compared but not shown (C124_hidden_counterexample)."
  },
  {
   "property": "C125",
   "status": "partial",
   "theorems": [
    "Bean.Props.C125_references_partial",
    "Bean.Props.C125_pointers",
    "Bean.Props.C125_plt_counterexample",
    "Bean.Props.C125_tls_counterexample",
    "Bean.Props.C125_unseen_counterexample",
    "Bean.Props.C125_packed_counterexample",
    "Bean.Props.C125_indirect_counterexample"
   ],
   "note": "C125_pointers: targets of relocations within code and data. C125_references_partial: branches are followed, and what the references are. Otherwise false: data accessed by instructions is not referred to, so functions do not change with it (C125_unseen_counterexample); no result with assertions for tables of jumps if attributes are hashed (C125_plt_counterexample, all such files), for R_386_TLS_TPOFF32 (C125_tls_counterexample, all such files with small offsets) and for adjacent packed pointers (C125_packed_counterexample); targets of R_386_IRELATIVE are ignored (C125_indirect_counterexample)."
  },
  {
   "property": "C126",
   "status": "partial",
   "theorems": [
    "Bean.Props.C126_reference_partial",
    "Bean.Props.C126_name_partial",
    "Bean.Props.C126_inherited_partial",
    "Bean.Props.C126_ranges_partial",
    "Bean.Props.C126_ranges_counterexample",
    "Bean.Props.C126_section_counterexample",
    "Bean.Props.C126_text_counterexample",
    "Bean.Props.C126_lost_counterexample",
    "Bean.Props.C126_both_counterexample"
   ],
   "note": "C126_reference_partial: references of types and declarations that count from the start of the unit, or in the first unit; others lead to a wrong entry (C126_section_counterexample), and a type elftools has no text for makes the program fail (C126_text_counterexample). C126_name_partial: names of origins if declarations have names and no entry has both a declaration and an origin; otherwise the name (C126_both_counterexample) or even the origin with all attributes (C126_lost_counterexample) is lost. C126_inherited_partial: without such declarations naming does no harm (extends C95). C126_ranges_partial: exact for units with start address; without it the offset of the list is given (C126_ranges_counterexample). References by signature or to supplementary files are not modelled."
  },
  {
   "property": "C127",
   "status": "partial",
   "theorems": [
    "Bean.Props.C127_asked",
    "Bean.Props.C127_content",
    "Bean.Props.C127_again",
    "Bean.Props.C127_distinct",
    "Bean.Props.C127_broken_counterexample",
    "Bean.Props.C127_summary_counterexample",
    "Bean.Props.C127_url_counterexample"
   ],
   "note": "C127_asked, C127_content, C127_again and C127_distinct hold for all file systems and behaviours of the services. Otherwise false: what was received from lost connections is delivered by the next search (C127_broken_counterexample), the summary of variables fails for every downloaded file (C127_summary_counterexample), the last service is asked with an undocumented address (C127_url_counterexample)."
  },
  {
   "property": "C128",
   "status": "partial",
   "theorems": [
    "Bean.Props.C128_address_partial",
    "Bean.Props.C128_path",
    "Bean.Props.C128_port_counterexample",
    "Bean.Props.C128_files_counterexample",
    "Bean.Props.C128_again",
    "Bean.Props.C128_restart_counterexample"
   ],
   "note": "C128_address_partial for all texts whose port is below 65536, C128_path for all texts with a slash, C128_again for the end by an interrupt. Otherwise false: five digits above 65535 raise an error (C128_port_counterexample), other network addresses are taken for files (C128_files_counterexample), after a client ended the server with two bytes it cannot be started again (C128_restart_counterexample)."
  },
  {
   "property": "C129",
   "status": "partial",
   "theorems": [
    "Bean.Props.C129_files_partial",
    "Bean.Props.C129_outside_counterexample",
    "Bean.Props.C129_missing_counterexample",
    "Bean.Props.C129_lines_counterexample",
    "Bean.Props.C129_cache_partial",
    "Bean.Props.C129_cache_counterexample",
    "Bean.Props.C129_compare_partial",
    "Bean.Props.C129_compare_counterexample"
   ],
   "note": "C129_files_partial and C129_compare_partial for files below the base directory. Otherwise false: files outside of the base directory, by default the current one, have no result (C129_outside_counterexample); hence the comparison without debug symbols ignores the variables of versions outside of the current directory (C129_compare_counterexample). One missing file prevents all results (C129_missing_counterexample), plain text has an additional empty line per file (C129_lines_counterexample). With a cache, results are the same if files with equal build identifiers are the same file (C129_cache_partial); otherwise a copy gets the result and path of the first file (C129_cache_counterexample)."
  },
  {
   "property": "C130",
   "status": "partial",
   "theorems": [
    "Bean.Props.C130_named",
    "Bean.Props.C130_unnamed",
    "Bean.Props.C130_distinct",
    "Bean.Props.C130_reconstructed_counterexample",
    "Bean.Props.C130_reconstructed_partial"
   ],
   "note": "C130_named, C130_unnamed and C130_distinct hold for all machines and numbers. Reconstructed relocations always have numbers of x86-64: C130_reconstructed_partial for those of four bytes in 32-bit files, C130_reconstructed_counterexample for all others, which are shown with names of unrelated types or none."
  },
  {
   "property": "C131",
   "status": "partial",
   "theorems": [
    "Bean.Props.C131_numbers",
    "Bean.Props.C131_reproducible_partial",
    "Bean.Props.C131_ties_counterexample",
    "Bean.Props.C131_candidates_counterexample"
   ],
   "note": "C131_numbers for all names; C131_reproducible_partial for names of texts without capital letters and numbers without leading zeros. Otherwise false: the order of names that differ only in case or leading zeros is the one of a set (C131_ties_counterexample), and candidates come after the release (C131_candidates_counterexample). The order of the package natsort is modelled as documented, for ASCII names."
  },
  {
   "property": "C132",
   "status": "partial",
   "theorems": [
    "Bean.Props.C132_files_partial",
    "Bean.Props.C132_directories_counterexample",
    "Bean.Props.C132_null_counterexample"
   ],
   "note": "C132_files_partial without debug symbols (with them, see C102), for the files that are meant by names and directories. Otherwise false: with one name and two directories, a file with this name outside of them is compared with itself and the update always is reported as possible (C132_directories_counterexample); with two directories and no file the behaviour is undefined (C132_null_counterexample)."
  },
  {
   "property": "C133",
   "status": "partial",
   "theorems": [
    "Bean.Props.C133_agree",
    "Bean.Props.C133_contents_partial",
    "Bean.Props.C133_cell_partial",
    "Bean.Props.C133_versions_partial",
    "Bean.Props.C133_failure",
    "Bean.Props.C133_usage"
   ],
   "note": "C133_agree holds for all arguments, with or without debug symbols. C133_contents_partial: contents of the summary without debug symbols. C133_cell_partial (for given hashes) and C133_versions_partial (with the program for variables) are the table without debug symbols, for directories that do not start with a dash and paths of at most 4096 characters, if the behaviour is defined; C133_failure is for an old file that is refused."
  },
  {
   "property": "C134",
   "status": "partial",
   "theorems": [
    "Bean.Props.C134_agree",
    "Bean.Props.C134_marks_partial",
    "Bean.Props.C134_files_partial",
    "Bean.Props.C134_map_counterexample",
    "Bean.Props.C134_usage",
    "Bean.Props.C134_code"
   ],
   "note": "C134_agree without option -v for all runs with an output; C134_marks_partial for one letter v and names without line breaks; C134_files_partial for each program, without debug symbols. C134_code for the options of the program for updates of code. False for the program for mappings with one name and two directories: no defined output (C134_map_counterexample)."
  },
  {
   "property": "C135",
   "status": "partial",
   "theorems": [
    "Bean.Props.C135_listing_partial",
    "Bean.Props.C135_changes_partial",
    "Bean.Props.C135_map_partial",
    "Bean.Props.C135_id_partial",
    "Bean.Props.C135_id_counterexample",
    "Bean.Props.C135_name_counterexample"
   ],
   "note": "C135_listing_partial, C135_changes_partial, C135_map_partial for all levels, without debug text and for names without control sequences (otherwise false: C135_name_counterexample); C135_id_partial for valid identifiers. False for unknown identifiers: the control sequence at the end is malformed (C135_id_counterexample)."
  },
  {
   "property": "C136",
   "status": "partial",
   "theorems": [
    "Bean.Props.C136_lines",
    "Bean.Props.C136_message",
    "Bean.Props.C136_ends",
    "Bean.Props.C136_exists",
    "Bean.Props.C136_outside_counterexample",
    "Bean.Props.C136_verbose"
   ],
   "note": "C136_lines, C136_message, C136_exists and C136_verbose for all runs that end without exception; C136_ends says which these are. False otherwise: a file that is not below the directory ends the program, and there is no line for the files behind it (C136_outside_counterexample)."
  },
  {
   "property": "C137",
   "status": "partial",
   "theorems": [
    "Bean.Props.C137_bound_partial",
    "Bean.Props.C137_bound_counterexample",
    "Bean.Props.C137_sizes_partial",
    "Bean.Props.C137_twice_counterexample",
    "Bean.Props.C137_same_partial",
    "Bean.Props.C137_offset_partial",
    "Bean.Props.C137_offset_counterexample"
   ],
   "note": "C137_bound_partial: bounds stored as constants. C137_same_partial: whatever the forms are, if all types are found, they are those of the numbers; C137_sizes_partial: with forms taken as numbers, they are found if and only if they are for the numbers. C137_offset_partial: offsets of members as data1, data2, data4, data8 or within the abbreviation. False for offsets as udata or sdata, which are lost (C137_offset_counterexample), for sizes in other forms, where asking twice ends the program (C137_twice_counterexample), and for bounds that are computed (C137_bound_counterexample)."
  },
  {
   "property": "C138",
   "status": "partial",
   "theorems": [
    "Bean.Props.C138_language",
    "Bean.Props.C138_encoding_partial",
    "Bean.Props.C138_encoding_counterexample"
   ],
   "note": "C138_language: values of languages (and of the other attributes without removed prefix) are told apart. C138_encoding_partial: so are encodings with names. False for encodings without names, of which nothing is left (C138_encoding_counterexample)."
  },
  {
   "property": "C139",
   "status": "partial",
   "theorems": [
    "Bean.Props.C139_text",
    "Bean.Props.C139_single_partial",
    "Bean.Props.C139_alternatives",
    "Bean.Props.C139_complete",
    "Bean.Props.C139_alternatives_counterexample",
    "Bean.Props.C139_versions_partial",
    "Bean.Props.C139_files_partial",
    "Bean.Props.C139_literal"
   ],
   "note": "C139_text: the pattern searched for has the text of the option with marks around it. C139_complete: no described name is lost. C139_single_partial, C139_versions_partial, C139_files_partial: exact for patterns without alternatives outside of groups (names without line feed at the end). False for alternatives outside of groups (C139_alternatives_counterexample); C139_alternatives says what these fit. C139_literal: a name with backslashes before the characters with a meaning fits this name only."
  },
  {
   "property": "C140",
   "status": "partial",
   "theorems": [
    "Bean.Props.C140_text_partial",
    "Bean.Props.C140_place_counterexample",
    "Bean.Props.C140_void_counterexample"
   ],
   "note": "C140_text_partial: name of the base type, number of stars and one const at the start if anything is constant, for base types with a name. The place of const is lost (C140_place_counterexample), and constants without type lose their type (C140_void_counterexample)."
  },
  {
   "property": "C141",
   "status": "partial",
   "theorems": [
    "Bean.Props.C141_reads_partial",
    "Bean.Props.C141_missing",
    "Bean.Props.C141_below_counterexample",
    "Bean.Props.C141_empty_counterexample",
    "Bean.Props.C141_outside_counterexample"
   ],
   "note": "C141_missing: nothing is read for missing files and directories. C141_reads_partial: as stated for existing files within the base directory. False for names below the base directory (C141_below_counterexample), for files outside of it (C141_outside_counterexample) and for debug files without debug information (C141_empty_counterexample)."
  },
  {
   "property": "C142",
   "status": "partial",
   "theorems": [
    "Bean.Props.C142_name_partial",
    "Bean.Props.C142_tag_counterexample"
   ],
   "note": "C142_name_partial: as stated for names without backslash in which no opening square bracket is followed by a character that starts a tag. False for others (C142_tag_counterexample): the part that looks like a tag is not shown. How the library rich treats tags is an assumption stated in the model; names with backslashes are not modelled."
  },
  {
   "property": "C143",
   "status": "partial",
   "theorems": [
    "Bean.Props.C143_files_partial",
    "Bean.Props.C143_others",
    "Bean.Props.C143_again_counterexample",
    "Bean.Props.C143_format"
   ],
   "note": "C143_files_partial: as stated if the option is used once. C143_others: files that are not named. C143_format: which names are for which format. False if the option is used more than once: the files of the earlier uses are emptied only (C143_again_counterexample)."
  },
  {
   "property": "C144",
   "status": "partial",
   "theorems": [
    "Bean.Props.C144_bytes_partial",
    "Bean.Props.C144_lines",
    "Bean.Props.C144_success_counterexample"
   ],
   "note": "C144_lines: each line is about an instruction. C144_bytes_partial: the bytes of the lines are those from the start to the first place that cannot be decoded. False if there is such a place: success is reported nevertheless (C144_success_counterexample). The decoder is arbitrary, with instructions of 1 to 15 bytes within the code; texts have no line feed."
  },
  {
   "property": "C145",
   "status": "partial",
   "theorems": [
    "Bean.Props.C145_text_partial",
    "Bean.Props.C145_enum_counterexample",
    "Bean.Props.C145_unnamed_counterexample"
   ],
   "note": "C145_text_partial: as stated for types whose members (with or without name) have types of base types, pointers and constants (texts as in C140), types with members (to any depth, with or without name), pointers to (constants of, pointers to) named types with members, pointers without type, or arrays of these. Missing: members that are functions. False for enumerations with underlying type (C145_enum_counterexample): its name follows the closing brace; and for pointers to types without name (C145_unnamed_counterexample): the members are not shown."
  }
 ]
}