{"claims": [
 {"property": "C01", "status": "proved", "theorems": ["Blazesym.Util.C01_reorder", "Blazesym.Util.C01_handler_sees_sorted_permutation", "Blazesym.Util.C01_results_in_input_order", "Blazesym.Util.C01_results_kept", "Blazesym.Util.C01_pointwise_handler"], "note": "Model: Util/Reorder. Method: loop invariant of the in-place reordering (permutation, growing fixed prefix), refinement to a map over the inputs."},
 {"property": "C02", "status": "partial", "theorems": ["Blazesym.Normalize.C02_query", "Blazesym.Normalize.C02_enumerate", "Blazesym.Normalize.C02_source_maps", "Blazesym.Normalize.C02_source_query", "Blazesym.Normalize.C02_source_cached", "Blazesym.Normalize.C02_source_error", "Blazesym.Normalize.C02_maps_file_partial", "Blazesym.Normalize.C02_execute_only", "Blazesym.Normalize.C02_normalize_partial", "Blazesym.Normalize.C02_error", "Blazesym.Normalize.C02_fails", "Blazesym.Normalize.C02_vdso_gap", "Blazesym.Normalize.C02_same_path_shares", "Blazesym.Normalize.C02_consistent", "Blazesym.Normalize.C02_consistent_map_files", "Blazesym.Normalize.C02_walk", "Blazesym.Normalize.C02_walk_query", "Blazesym.Normalize.C02_query_all_above_fails", "Blazesym.Normalize.C02_no_mapping", "Blazesym.Normalize.C02_unsorted_refused", "Blazesym.Normalize.C02_unsorted_invalid_input", "Blazesym.Normalize.C02_walk_malformed", "Blazesym.Normalize.C02_walk_malformed_first"], "note": "Missing: Addresses in the vDSO outside of its symbols (C02_vdso_gap) and files that occur with different build IDs (C02_same_path_shares): there the code does something else than documented."},
 {"property": "C03", "status": "proved", "theorems": ["Blazesym.Normalize.C03_records"], "note": "Model: Normalize/Walk, Normalize/User. Method: invariant over the walk: every index is below the length of the metadata, equal metadata is shared."},
 {"property": "C04", "status": "proved", "theorems": ["Blazesym.Elf.C04_lookup_sound", "Blazesym.Elf.C04_lookup_largest", "Blazesym.Elf.C04_lookup_error", "Blazesym.Elf.C04_file_find_sym"], "note": "Model: Elf/Symtab, Elf/Image. Method: search lemma for the symbol index, list induction over candidates."},
 {"property": "C05", "status": "partial", "theorems": ["Blazesym.Elf.C05_miss_condition", "Blazesym.Elf.C05_complete_partial", "Blazesym.Elf.C05_found_partial", "Blazesym.Elf.C05_fails", "Blazesym.Elf.C05_fails_witness", "Blazesym.Elf.C05_nested_not_found"], "note": "Missing: A symbol that starts at the lowest start of the table, together with another one there, may be missed (C05_fails)."},
 {"property": "C06", "status": "proved", "theorems": ["Blazesym.Util.C06_find_lowest_match_some", "Blazesym.Util.C06_find_lowest_match_none", "Blazesym.Util.C06_find_lowest_match_by_key"], "note": "Model: Util/Search. Method: binary search as an explicit loop; every result the contract of the standard library permits."},
 {"property": "C07", "status": "partial", "theorems": ["Blazesym.Util.C07_lower_bound_none", "Blazesym.Util.C07_lower_bound_greatest", "Blazesym.Util.C07_first_of_equals_partial", "Blazesym.Util.C07_first_of_equals_fails", "Blazesym.Util.C07_first_of_equals_witness"], "note": "Missing: 'First of equal matches' fails for a run of equal keys that starts the sequence and is below the item (C07_first_of_equals_fails)."},
 {"property": "C08", "status": "partial", "theorems": ["Blazesym.Elf.C08_find_addr_symtab", "Blazesym.Elf.C08_find_addr_dynsym_partial", "Blazesym.Elf.C08_dynsym_hidden", "Blazesym.Elf.C08_find_addr_succeeds", "Blazesym.Elf.C08_bad_name_fails_all"], "note": "Missing: Names only in .dynsym are dropped if .symtab has a symbol of the same kind at their address (C08_dynsym_hidden)."},
 {"property": "C09", "status": "proved", "theorems": ["Blazesym.Elf.C09_virt_offset_found", "Blazesym.Elf.C09_virt_offset_none", "Blazesym.Elf.C09_virt_offset_error", "Blazesym.Elf.C09_find_file_offset", "Blazesym.Elf.C09_symbol_file_offset", "Blazesym.Elf.C09_symbol_no_file_offset", "Blazesym.Elf.C09_symbol_offset", "Blazesym.Elf.C09_before_section", "Blazesym.Elf.C09_roundtrip"], "note": "Model: Elf/Image. Method: arithmetic over segments and sections, first-match lemmas."},
 {"property": "C10", "status": "partial", "theorems": ["Blazesym.Elf.C10_header", "Blazesym.Elf.C10_section_headers", "Blazesym.Elf.C10_program_headers", "Blazesym.Elf.C10_section_data_raw", "Blazesym.Elf.C10_section_data", "Blazesym.Elf.C10_section_name", "Blazesym.Elf.C10_find_section", "Blazesym.Elf.C10_find_section_none", "Blazesym.Elf.C10_symtab", "Blazesym.Elf.C10_dynsym", "Blazesym.Elf.C10_header_accepted", "Blazesym.Elf.C10_tables_accepted", "Blazesym.Elf.C10_section_data_accepted", "Blazesym.Elf.C10_no_panic_partial", "Blazesym.Elf.C10_file_backend_panics", "Blazesym.Elf.C10_no_section_headers", "Blazesym.Elf.C10_wrong_compressed_size_panics", "Blazesym.Elf.C10_section_data_no_other_panic", "Blazesym.Elf.C10_missing_section"], "note": "Missing: Compressed sections whose announced size is wrong (C10_wrong_compressed_size_panics) and the file backend (C10_file_backend_panics) panic."},
 {"property": "C11", "status": "proved", "theorems": ["Blazesym.Util.C11_read_slice", "Blazesym.Util.C11_read_array", "Blazesym.Util.C11_peek_array", "Blazesym.Util.C11_ensure", "Blazesym.Util.C11_align", "Blazesym.Util.C11_read_cstr", "Blazesym.Util.C11_read_uint", "Blazesym.Util.C11_read_pod_slice_ref", "Blazesym.Util.C11_read_pod_slice_ref_complete", "Blazesym.Util.C11_align_up", "Blazesym.Util.C11_split_bytes", "Blazesym.Util.C11_split_once_eq"], "note": "Model: Util/Reader. Method: induction over the operations of the cursor."},
 {"property": "C12", "status": "proved", "theorems": ["Blazesym.Util.C12_uleb_roundtrip", "Blazesym.Util.C12_uleb_value", "Blazesym.Util.C12_uleb_truncated", "Blazesym.Util.C12_uleb_overlong_panics", "Blazesym.Util.C12_sleb_roundtrip", "Blazesym.Util.C12_sleb_malformed"], "note": "Model: Util/Reader. Method: induction on the value; the encoder is the specification."},
 {"property": "C13", "status": "proved", "theorems": ["Blazesym.Cache.C13_returns_present_identity", "Blazesym.Cache.C13_lookup_succeeds", "Blazesym.Cache.C13_failed_lookup_changes_nothing", "Blazesym.Cache.C13_pinned_is_returned", "Blazesym.Cache.C13_pinned_stays", "Blazesym.Cache.C13_entry_belongs_to_identity"], "note": "Model: Cache/FileCache. Method: invariant by induction over histories of lookups, evictions and pins."},
 {"property": "C14", "status": "proved", "theorems": ["Blazesym.Cache.C14_refcount", "Blazesym.Cache.C14_cached_iff_referenced", "Blazesym.Cache.C14_no_panic", "Blazesym.Cache.C14_evict", "Blazesym.Cache.C14_value_stable"], "note": "Model: Cache/FileCache. Method: the same invariant: reference counts equal the number of paths that refer to an entry."},
 {"property": "C15", "status": "partial", "theorems": ["Blazesym.Cache.ElfCache.C15_failed_cache_partial", "Blazesym.Cache.ElfCache.C15_failed_cache_unknown_path", "Blazesym.Cache.ElfCache.C15_failed_cache_pins", "Blazesym.Cache.ElfCache.C15_failed_cache_replaces", "Blazesym.Cache.ElfCache.C15_process"], "note": "Missing: Paths known but not pinned (C15_failed_cache_pins), and a file that was replaced by an unusable one (C15_failed_cache_replaces): the code does not meet the documented claim."},
 {"property": "C16", "status": "partial", "theorems": ["Blazesym.Maps.C16_parse_printed_partial", "Blazesym.Maps.C16_trailing_blanks_lost", "Blazesym.Maps.C16_permissions", "Blazesym.Maps.C16_maps_file", "Blazesym.Maps.C16_deleted", "Blazesym.Maps.C16_not_deleted", "Blazesym.Maps.C16_fields", "Blazesym.Maps.C16_errors"], "note": "Missing: Names that end in blanks are reported without them (C16_trailing_blanks_lost)."},
 {"property": "C17", "status": "proved", "theorems": ["Blazesym.Maps.C17_entries", "Blazesym.Maps.C17_collect", "Blazesym.Maps.C17_malformed", "Blazesym.Maps.C17_collect_error", "Blazesym.Maps.C17_empty_line_refused"], "note": "Model: Maps/Maps. Method: list induction; refinement to a filter."},
 {"property": "C18", "status": "partial", "theorems": ["Blazesym.Gsym.C18_entry_data", "Blazesym.Gsym.C18_parse", "Blazesym.Gsym.C18_lookup", "Blazesym.Gsym.C18_lookup_complete_partial", "Blazesym.Gsym.C18_below", "Blazesym.Gsym.C18_gap", "Blazesym.Gsym.C18_never_above", "Blazesym.Gsym.C18_errors", "Blazesym.Gsym.C18_overflow_panics", "Blazesym.Gsym.C18_bad_width", "Blazesym.Gsym.C18_unaligned_unknown", "Blazesym.Gsym.C18_unaligned_misread"], "note": "Missing: Entries whose end is beyond the address space (C18_overflow_panics), data that is not aligned (C18_unaligned_unknown, C18_unaligned_misread)."},
 {"property": "C19", "status": "partial", "theorems": ["Blazesym.Gsym.C19_row", "Blazesym.Gsym.C19_last_row_partial", "Blazesym.Gsym.C19_trailing_operators", "Blazesym.Gsym.C19_no_row", "Blazesym.Gsym.C19_rows_ascending", "Blazesym.Gsym.C19_bounds", "Blazesym.Gsym.C19_invalid_data", "Blazesym.Gsym.C19_header_truncated", "Blazesym.Gsym.C19_pc_overflow_panics", "Blazesym.Gsym.C19_line_overflow_panics", "Blazesym.Gsym.C19_empty_range", "Blazesym.Gsym.C19_trailing_operators_witness"], "note": "Missing: Operators after the last row (C19_trailing_operators); addresses and lines that leave their ranges panic (C19_pc_overflow_panics, C19_line_overflow_panics)."},
 {"property": "C20", "status": "proved", "theorems": ["Blazesym.Gsym.C20_inlined", "Blazesym.Gsym.C20_invalid", "Blazesym.Gsym.C20_nested", "Blazesym.Gsym.C20_no_panic", "Blazesym.Gsym.C20_truncated"], "note": "Model: Gsym/Inline. Method: refinement of the recursive byte decoder against a tree encoder; induction on trees."},
 {"property": "C21", "status": "partial", "theorems": ["Blazesym.Breakpad.C21_sound", "Blazesym.Breakpad.C21_no_symbol_partial", "Blazesym.Breakpad.C21_found_partial", "Blazesym.Breakpad.C21_same_start", "Blazesym.Breakpad.C21_overflow_panics", "Blazesym.Breakpad.C21_same_start_differs"], "note": "Missing: Functions that reach the end of the address space: lookup panics (C21_overflow_panics)."},
 {"property": "C22", "status": "partial", "theorems": ["Blazesym.Breakpad.C22_sound", "Blazesym.Breakpad.C22_no_location_partial", "Blazesym.Breakpad.C22_disjoint", "Blazesym.Breakpad.C22_overlap_missed"], "note": "Missing: Line records that reach the end of the address space, and records that contain the address although another one starts nearer (C22_overlap_missed)."},
 {"property": "C23", "status": "partial", "theorems": ["Blazesym.Breakpad.C23_chain_sound", "Blazesym.Breakpad.C23_chain_complete_partial", "Blazesym.Breakpad.C23_overlap_missed", "Blazesym.Breakpad.C23_end_missed"], "note": "Missing: Overlapping records of one depth (C23_overlap_missed) and records that reach the end of the address space (C23_end_missed)."},
 {"property": "C24", "status": "partial", "theorems": ["Blazesym.Breakpad.C24_parse_sound", "Blazesym.Breakpad.C24_parse_complete", "Blazesym.Breakpad.C24_parse_rejects_partial", "Blazesym.Breakpad.C24_parse_rejects", "Blazesym.Breakpad.C24_parse_total_partial", "Blazesym.Breakpad.C24_long_line_panics", "Blazesym.Breakpad.C24_data_of_records", "Blazesym.Breakpad.C24_module_takes_next_line", "Blazesym.Breakpad.C24_empty_line_in_function"], "note": "Missing: Files that are not accepted and have lines of 65535 bytes or more (C24_long_line_panics)."},
 {"property": "C25", "status": "proved", "theorems": ["Blazesym.Zip.C25_entry", "Blazesym.Zip.C25_entry_error", "Blazesym.Zip.C25_entries_sound", "Blazesym.Zip.C25_entries_complete", "Blazesym.Zip.C25_no_panic"], "note": "Model: Zip/Archive. Method: byte model, bounds."},
 {"property": "C26", "status": "proved", "theorems": ["Blazesym.Zip.C26_opens", "Blazesym.Zip.C26_rejects", "Blazesym.Zip.C26_comment"], "note": "Model: Zip/Archive. Method: induction over the backwards search for the end record."},
 {"property": "C27", "status": "proved", "theorems": ["Blazesym.Zip.C27_translate", "Blazesym.Zip.C27_resolver", "Blazesym.Zip.C27_no_member", "Blazesym.Zip.C27_path"], "note": "Model: Zip/Archive. Method: list induction over the members."},
 {"property": "C28", "status": "partial", "theorems": ["Blazesym.PerfMap.C28_line", "Blazesym.PerfMap.C28_parse", "Blazesym.PerfMap.C28_malformed", "Blazesym.PerfMap.C28_lookup_sound", "Blazesym.PerfMap.C28_lookup_complete_partial", "Blazesym.PerfMap.C28_same_start", "Blazesym.PerfMap.C28_overflow_panics", "Blazesym.PerfMap.C28_overlap_missed", "Blazesym.PerfMap.C28_path"], "note": "Missing: Functions that reach the end of the address space (C28_overflow_panics); functions with an earlier start are not considered (C28_overlap_missed)."},
 {"property": "C29", "status": "partial", "theorems": ["Blazesym.Util.C29_map", "Blazesym.Util.C29_constrain_partial", "Blazesym.Util.C29_nested", "Blazesym.Util.C29_reversed", "Blazesym.Util.C29_overflow_panics", "Blazesym.Util.C29_empty_not_refused"], "note": "Missing: Of an empty file the first byte is not refused (C29_empty_not_refused); ranges beyond the address space panic (C29_overflow_panics)."},
 {"property": "C30", "status": "proved", "theorems": ["Blazesym.Kernel.C30_load", "Blazesym.Kernel.C30_load_errors", "Blazesym.Kernel.C30_lookup", "Blazesym.Kernel.C30_unknown", "Blazesym.Kernel.C30_alias", "Blazesym.Kernel.C30_symbol"], "note": "Model: Kernel/Ksym. Method: parser round trip, search lemmas."},
 {"property": "C31", "status": "partial", "theorems": ["Blazesym.Kernel.C31_variables", "Blazesym.Kernel.C31_name_lookup_partial", "Blazesym.Kernel.C31_reports_others", "Blazesym.Kernel.C31_reports_absent", "Blazesym.Kernel.C31_order"], "note": "Missing: Other symbols than those of the name can be reported (C31_reports_others, C31_reports_absent)."},
 {"property": "C32", "status": "partial", "theorems": ["Blazesym.Kernel.C32_line", "Blazesym.Kernel.C32_load", "Blazesym.Kernel.C32_load_succeeds", "Blazesym.Kernel.C32_found", "Blazesym.Kernel.C32_complete_partial", "Blazesym.Kernel.C32_unknown", "Blazesym.Kernel.C32_overlap_missed", "Blazesym.Kernel.C32_overflow_panics"], "note": "Missing: Modules that end beyond the address space (C32_overflow_panics)."},
 {"property": "C33", "status": "proved", "theorems": ["Blazesym.Kernel.Depmod.C33_sound", "Blazesym.Kernel.Depmod.C33_complete", "Blazesym.Kernel.Depmod.C33_panics_iff", "Blazesym.Kernel.Depmod.C33_trie", "Blazesym.Kernel.Depmod.C33_validate"], "note": "Model: Kernel/Depmod. Method: refinement of the byte-level trie walk against a trie specification; well-founded recursion."},
 {"property": "C34", "status": "partial", "theorems": ["Blazesym.Kernel.C34_kallsyms_only", "Blazesym.Kernel.C34_module", "Blazesym.Kernel.C34_module_only", "Blazesym.Kernel.C34_module_missing", "Blazesym.Kernel.C34_core", "Blazesym.Kernel.C34_refused", "Blazesym.Kernel.C34_compression", "Blazesym.Kernel.C34_module_file", "Blazesym.Kernel.C34_zst_not_decompressed", "Blazesym.Kernel.C34_offset_wrong", "Blazesym.Kernel.C34_module_offset_wrong", "Blazesym.Kernel.C34_offset_partial", "Blazesym.Kernel.C34_select_kallsyms", "Blazesym.Kernel.C34_select_vmlinux", "Blazesym.Kernel.C34_new", "Blazesym.Kernel.C34_new_errors", "Blazesym.Kernel.C34_new_has_source"], "note": "Missing: With a KASLR offset, or in a module, the reported offset is wrong (C34_offset_wrong, C34_module_offset_wrong)."},
 {"property": "C35", "status": "partial", "theorems": ["Blazesym.Kernel.C35_descriptor", "Blazesym.Kernel.C35_segment_partial", "Blazesym.Kernel.C35_kcore_sound", "Blazesym.Kernel.C35_kcore_partial", "Blazesym.Kernel.C35_tail_ignored", "Blazesym.Kernel.C35_no_panic", "Blazesym.Kernel.C35_descriptor_size_panics", "Blazesym.Kernel.C35_kcore_used", "Blazesym.Kernel.C35_stext", "Blazesym.Kernel.C35_errors", "Blazesym.Kernel.C35_missing_kcore", "Blazesym.Kernel.C35_kallsyms", "Blazesym.Kernel.C35_once", "Blazesym.Kernel.C35_once_failed"], "note": "Missing: A note that starts in the last p_offset bytes of the segment is ignored (C35_tail_ignored); a descriptor of almost 4 GB panics (C35_descriptor_size_panics)."},
 {"property": "C36", "status": "partial", "theorems": ["Blazesym.Dwarf.C36_accepted", "Blazesym.Dwarf.C36_failure", "Blazesym.Dwarf.C36_kept", "Blazesym.Dwarf.C36_ranges", "Blazesym.Dwarf.C36_units_partial", "Blazesym.Dwarf.C36_max_wrong", "Blazesym.Dwarf.C36_overflow_wrong"], "note": "Missing: The greatest address (C36_max_wrong) and code beyond the end of the address space (C36_overflow_wrong) panic."},
 {"property": "C37", "status": "partial", "theorems": ["Blazesym.Dwarf.C37_accepted", "Blazesym.Dwarf.C37_location_partial", "Blazesym.Dwarf.C37_outside", "Blazesym.Dwarf.C37_covered", "Blazesym.Dwarf.C37_no_panic", "Blazesym.Dwarf.C37_file_wrong", "Blazesym.Dwarf.C37_huge_line_wrong", "Blazesym.Dwarf.C37_empty_sequence_wrong", "Blazesym.Dwarf.C37_file", "Blazesym.Dwarf.C37_file_accepted"], "note": "Missing: Empty sequences, lines above 2^32 and files the program does not have (C37_empty_sequence_wrong, C37_huge_line_wrong, C37_file_wrong)."},
 {"property": "C38", "status": "proved", "theorems": ["Blazesym.Dwarf.C38_accepted", "Blazesym.Dwarf.C38_functions", "Blazesym.Dwarf.C38_depths", "Blazesym.Dwarf.C38_chain", "Blazesym.Dwarf.C38_outside", "Blazesym.Dwarf.C38_bad_entry"], "note": "Model: Dwarf/Function. Method: induction over the depth of the search; refinement to the tree of entries."},
 {"property": "C39", "status": "partial", "theorems": ["Blazesym.Breakpad.C39_breakpad_inlined", "Blazesym.Breakpad.C39_breakpad_unknown", "Blazesym.Dwarf.C39_dwarf_partial", "Blazesym.Dwarf.C39_dwarf_known", "Blazesym.Dwarf.C39_dwarf_wrong", "Blazesym.Gsym.C39_gsym_inlined", "Blazesym.Gsym.C39_gsym_no_inlined", "Blazesym.Gsym.C39_gsym_no_line", "Blazesym.Gsym.C39_gsym_data_partial", "Blazesym.Gsym.C39_gsym_data_total_partial", "Blazesym.Gsym.C39_gsym_unknown"], "note": "Missing: If the place of the first call is not known, locations are attributed to the wrong frame (C39_dwarf_wrong)."},
 {"property": "C40", "status": "partial", "theorems": ["Blazesym.Dwarf.C40_candidates_partial", "Blazesym.Dwarf.C40_candidates_unknown", "Blazesym.Dwarf.C40_not_itself", "Blazesym.Dwarf.C40_find", "Blazesym.Dwarf.C40_find_unknown", "Blazesym.Dwarf.C40_finite", "Blazesym.Dwarf.C40_precedence_wrong", "Blazesym.Dwarf.C40_relative_wrong"], "note": "Missing: Relative paths of files that no longer exist (C40_relative_wrong)."},
 {"property": "C41", "status": "partial", "theorems": ["Blazesym.Elf.C41_debug_link", "Blazesym.Elf.C41_debug_link_only", "Blazesym.Elf.C41_read_debug_link_partial", "Blazesym.Elf.C41_unreadable_panics", "Blazesym.Elf.C41_debug_link_found", "Blazesym.Elf.C41_debug_link_malformed", "Blazesym.Elf.C41_no_debug_link"], "note": "Missing: A section that cannot be read (C41_unreadable_panics)."},
 {"property": "C42", "status": "partial", "theorems": ["Blazesym.Symbolize.C42_refused_partial", "Blazesym.Symbolize.C42_unopened_elf_wrong", "Blazesym.Symbolize.C42_elf_file_offset", "Blazesym.Symbolize.C42_elf_virt_offset", "Blazesym.Symbolize.C42_apk", "Blazesym.Symbolize.C42_breakpad", "Blazesym.Symbolize.C42_kernel", "Blazesym.Symbolize.C42_gsym"], "note": "Missing: An ELF file that cannot be opened: that is reported, not that the input is unsupported (C42_unopened_elf_wrong)."},
 {"property": "C43", "status": "partial", "theorems": ["Blazesym.Symbolize.C43_process_batch_partial", "Blazesym.Symbolize.C43_process_batch_error", "Blazesym.Symbolize.C43_process_one_fails_wrong", "Blazesym.Symbolize.C43_batch", "Blazesym.Symbolize.C43_batch_error", "Blazesym.Symbolize.C43_batch_ok"], "note": "Missing: Process batches: one address whose file cannot be opened makes the batch fail (C43_process_one_fails_wrong); dispatchers that go by more than the name (C44_dispatcher_shared_wrong)."},
 {"property": "C44", "status": "proved", "theorems": ["Blazesym.Symbolize.C44_vdso_only_vdso", "Blazesym.Symbolize.C44_files_only_files", "Blazesym.Symbolize.C44_unmapped", "Blazesym.Symbolize.C44_overflow", "Blazesym.Symbolize.C44_file", "Blazesym.Symbolize.C44_archive", "Blazesym.Symbolize.C44_component", "Blazesym.Symbolize.C44_anonymous", "Blazesym.Symbolize.C44_perf_map_only_anonymous", "Blazesym.Symbolize.C44_dispatcher", "Blazesym.Symbolize.C44_dispatcher_error", "Blazesym.Symbolize.C44_no_listing", "Blazesym.Symbolize.C44_dispatcher_shared_wrong", "Blazesym.Symbolize.C44_looked", "Blazesym.Symbolize.C44_looked_at"], "note": "Model: Symbolize/Symbolizer. Method: invariant over the walk with the symbolization handler."},
 {"property": "C45", "status": "partial", "theorems": ["Blazesym.Breakpad.C45_breakpad", "Blazesym.Dwarf.C45_dwarf", "Blazesym.Dwarf.C45_dwarf_failure", "Blazesym.Dwarf.C45_dwarf_variable", "Blazesym.Dwarf.C45_dwarf_text_wrong", "Blazesym.Elf.C45_for_each_elf_partial", "Blazesym.Elf.C45_for_each_elf_errors", "Blazesym.Elf.C45_break_ignored", "Blazesym.Kernel.C45_kallsyms"], "note": "Missing: Asking to stop during .symtab does not stop .dynsym (C45_break_ignored)."},
 {"property": "C46", "status": "partial", "theorems": ["Blazesym.CApi.C46_results_partial", "Blazesym.CApi.C46_otherwise", "Blazesym.CApi.C46_free", "Blazesym.CApi.C46_string", "Blazesym.CApi.C46_reserved_wrong", "Blazesym.CApi.C46_symbol_lists", "Blazesym.CApi.C46_symbol_lists_otherwise", "Blazesym.CApi.C46_single_symbol"], "note": "Missing: Reserved members are not written (C46_reserved_wrong)."},
 {"property": "C47", "status": "proved", "theorems": ["Blazesym.CApi.C47_header", "Blazesym.CApi.C47_range", "Blazesym.CApi.C47_distinct", "Blazesym.CApi.C47_text", "Blazesym.CApi.C47_success", "Blazesym.CApi.C47_unknown", "Blazesym.CApi.C47_texts_distinct", "Blazesym.CApi.C47_reason_header", "Blazesym.CApi.C47_reason_distinct", "Blazesym.CApi.C47_reason_text", "Blazesym.CApi.C47_reason_unknown"], "note": "Model: CApi/Codes. Method: case analysis over all codes."},
 {"property": "C48", "status": "proved", "theorems": ["Blazesym.Error.C48_every_error", "Blazesym.Error.C48_kind", "Blazesym.Error.C48_root_kind", "Blazesym.Error.C48_made", "Blazesym.Error.C48_display_chain", "Blazesym.Error.C48_display_plain", "Blazesym.Error.C48_debug", "Blazesym.Error.C48_result"], "note": "Model: Error/Error. Method: induction on layers of context."},
 {"property": "C49", "status": "partial", "theorems": ["Blazesym.Elf.C49_notes_sound_partial", "Blazesym.Elf.C49_notes_complete", "Blazesym.Elf.C49_notes_none", "Blazesym.Elf.C49_other_owner", "Blazesym.Elf.C49_overflow_panics", "Blazesym.Elf.C49_read_build_id_partial", "Blazesym.Elf.C49_no_build_id", "Blazesym.Elf.C49_unreadable_panics", "Blazesym.Elf.C49_build_id_found", "Blazesym.Elf.C49_build_id_in_memory", "Blazesym.Elf.C49_misaligned_refused"], "note": "Missing: The owner of the note is not checked to be GNU (C49_other_owner)."},
 {"property": "C50", "status": "partial", "theorems": ["Blazesym.Kernel.C50_accepts", "Blazesym.Kernel.C50_display", "Blazesym.Kernel.C50_round_trip", "Blazesym.Kernel.C50_characters_partial", "Blazesym.Kernel.C50_hex_accepted", "Blazesym.Kernel.C50_sign_accepted", "Blazesym.Kernel.C50_panics_iff", "Blazesym.Kernel.C50_no_panic_partial", "Blazesym.Kernel.C50_parse", "Blazesym.Kernel.C50_parse_panics"], "note": "Missing: A sign is accepted (C50_sign_accepted); multibyte characters can panic (C50_panics_iff)."},
 {"property": "C51", "status": "proved", "theorems": ["Blazesym.Cache.C51_get_or_try_insert", "Blazesym.Cache.C51_get_or_insert", "Blazesym.Cache.C51_remove", "Blazesym.Cache.C51_retain", "Blazesym.Cache.C51_value_is_stable"], "note": "Model: Cache/InsertMap. Method: induction over histories."},
 {"property": "C52", "status": "proved", "theorems": ["Blazesym.Util.C52_from_radix_16", "Blazesym.Util.C52_overflow_panics", "Blazesym.Util.C52_none_only_nondigit"], "note": "Model: Util/Text. Method: induction on digits."},
 {"property": "C53", "status": "partial", "theorems": ["Blazesym.Cache.ElfCache.C53_views_share_parser", "Blazesym.Cache.ElfCache.C53_plain_never_panics", "Blazesym.Cache.ElfCache.C53_parsed_once", "Blazesym.Cache.ElfCache.C53_dwarf_never_panics_partial", "Blazesym.Cache.ElfCache.C53_self_reference_panics"], "note": "Missing: A file whose debug link or package is the file itself under another name: the code panics (C53_self_reference_panics)."},
 {"property": "C54", "status": "partial", "theorems": ["Blazesym.Dwarf.C54_debug_section_partial", "Blazesym.Dwarf.C54_debug_section_other", "Blazesym.Dwarf.C54_dwo_section", "Blazesym.Dwarf.C54_beyond_end", "Blazesym.Elf.C54_relocations_64_partial", "Blazesym.Elf.C54_relocations_32_partial", "Blazesym.Elf.C54_other_files", "Blazesym.Elf.C54_accepted", "Blazesym.Elf.C54_no_panic", "Blazesym.Elf.C54_symbol_32_wrong"], "note": "Missing: 32 bit objects: symbol 0 is used for every entry (C54_symbol_32_wrong)."},
 {"property": "C55", "status": "proved", "theorems": ["Blazesym.Util.C55_extension", "Blazesym.Util.C55_without_extension", "Blazesym.Util.C55_join", "Blazesym.Util.C55_path_eq", "Blazesym.Util.C55_parent", "Blazesym.Util.C55_set_file_name", "Blazesym.Util.C55_middle", "Blazesym.Util.C55_split_last", "Blazesym.Util.C55_split_none", "Blazesym.Util.C55_split_join"], "note": "Model: Util/Path. Method: induction on path components."},
 {"property": "C56", "status": "proved", "theorems": ["Blazesym.Breakpad.C56_name_lookup"], "note": "Model: Breakpad/Resolver. Method: list induction."},
 {"property": "C57", "status": "partial", "theorems": ["Blazesym.Kernel.C57_known", "Blazesym.Kernel.C57_lookup", "Blazesym.Kernel.C57_remembered", "Blazesym.Kernel.C57_error", "Blazesym.Kernel.C57_repeat_partial", "Blazesym.Kernel.C57_repeat_differs"], "note": "Missing: Repeated lookups when programs share a tag (C57_repeat_differs)."},
 {"property": "C58", "status": "proved", "theorems": ["Blazesym.Kernel.C58_records", "Blazesym.Kernel.C58_errors", "Blazesym.Kernel.C58_location", "Blazesym.Kernel.C58_exact", "Blazesym.Kernel.C58_no_location", "Blazesym.Kernel.C58_symbol"], "note": "Model: Kernel/Bpf. Method: search lemmas over line records, byte-level decoding."},
 {"property": "C59", "status": "partial", "theorems": ["Blazesym.Zip.C59_history_partial", "Blazesym.Zip.C59_debug_syms_ignored_wrong"], "note": "Missing: Requests that differ in whether to use debug information (C59_debug_syms_ignored_wrong)."},
 {"property": "C60", "status": "partial", "theorems": ["Blazesym.CApi.C60_layout", "Blazesym.CApi.C60_refused_partial", "Blazesym.CApi.C60_taken", "Blazesym.CApi.C60_array", "Blazesym.CApi.C60_missing", "Blazesym.CApi.C60_present", "Blazesym.CApi.C60_process", "Blazesym.CApi.C60_process_first", "Blazesym.CApi.C60_kernel", "Blazesym.CApi.C60_elf", "Blazesym.CApi.C60_inspect", "Blazesym.CApi.C60_gsym_file", "Blazesym.CApi.C60_gsym_data", "Blazesym.CApi.C60_cache_elf", "Blazesym.CApi.C60_cache_process", "Blazesym.CApi.C60_normalizer", "Blazesym.CApi.C60_normalize", "Blazesym.CApi.C60_symbolizer", "Blazesym.CApi.C60_reserved_wrong"], "note": "Missing: A reserved member in the middle of the symbolizer options is not looked at (C60_reserved_wrong)."},
 {"property": "C61", "status": "partial", "theorems": ["Blazesym.CApi.C61_history", "Blazesym.CApi.C61_null", "Blazesym.CApi.C61_invalid", "Blazesym.CApi.C61_symbolize", "Blazesym.CApi.C61_cache", "Blazesym.CApi.C61_normalize", "Blazesym.CApi.C61_inspect_partial", "Blazesym.CApi.C61_build_id", "Blazesym.CApi.C61_procmap", "Blazesym.CApi.C61_new", "Blazesym.CApi.C61_inspect_wrong"], "note": "Missing: Names that are not UTF-8 abort the program (C61_inspect_wrong)."},
 {"property": "C62", "status": "proved", "theorems": ["Blazesym.Dwarf.C62_accepted", "Blazesym.Dwarf.C62_functions", "Blazesym.Dwarf.C62_found", "Blazesym.Dwarf.C62_answer", "Blazesym.Dwarf.C62_complete", "Blazesym.Dwarf.C62_outside", "Blazesym.Dwarf.C62_nested_wrong", "Blazesym.Dwarf.C62_file", "Blazesym.Dwarf.C62_file_accepted"], "note": "Model: Dwarf/Function, Dwarf/Data. Method: refinement of the table of functions to the tree of entries; search lemmas."},
 {"property": "C63", "status": "proved", "theorems": ["Blazesym.Dwarf.C63_reference", "Blazesym.Dwarf.C63_reference_accepted", "Blazesym.Dwarf.C63_dangling", "Blazesym.Dwarf.C63_unit", "Blazesym.Dwarf.C63_no_unit", "Blazesym.Dwarf.C63_name", "Blazesym.Dwarf.C63_unique"], "note": "Model: Dwarf/Function, Dwarf/Units. Method: well-founded recursion over references."},
 {"property": "C64", "status": "partial", "theorems": ["Blazesym.Dwarf.C64_found", "Blazesym.Dwarf.C64_found_iff", "Blazesym.Dwarf.C64_basic", "Blazesym.Dwarf.C64_code_info", "Blazesym.Dwarf.C64_function_partial", "Blazesym.Dwarf.C64_fallback", "Blazesym.Dwarf.C64_accepted", "Blazesym.Dwarf.C64_extent_wrong", "Blazesym.Dwarf.C64_ranges_wrong", "Blazesym.Dwarf.C64_language", "Blazesym.Dwarf.C64_total"], "note": "Missing: Functions described by ranges only have address zero (C64_ranges_wrong); ranges and an end before the lowest address panic (C64_extent_wrong); functions with code within that of others (C62_nested_wrong)."},
 {"property": "C65", "status": "partial", "theorems": ["Blazesym.Dwarf.C65_find_addr_partial", "Blazesym.Dwarf.C65_variable", "Blazesym.Dwarf.C65_accepted", "Blazesym.Dwarf.C65_all_wrong"], "note": "Missing: Of several functions of a unit with the name only the first is reported (C65_all_wrong)."},
 {"property": "C66", "status": "proved", "theorems": ["Blazesym.Dwarf.C66_linked", "Blazesym.Dwarf.C66_own", "Blazesym.Dwarf.C66_loaded", "Blazesym.Dwarf.C66_checksum", "Blazesym.Dwarf.C66_unreadable", "Blazesym.Dwarf.C66_package", "Blazesym.Dwarf.C66_succeeds", "Blazesym.Dwarf.C66_module", "Blazesym.Dwarf.C66_fallback_wrong", "Blazesym.Dwarf.C66_fallback_sym_wrong"], "note": "Model: Dwarf/Open, Dwarf/DebugLink. Method: interaction programs (lookups of further files as questions); case analysis."},
 {"property": "C67", "status": "partial", "theorems": ["Blazesym.Inspect.C67_breakpad_lookup", "Blazesym.Inspect.C67_breakpad_for_each", "Blazesym.Inspect.C67_elf_lookup_partial", "Blazesym.Inspect.C67_elf_for_each", "Blazesym.Inspect.C67_debug_lookup_partial", "Blazesym.Inspect.C67_debug_for_each_partial", "Blazesym.Inspect.C67_module_wrong", "Blazesym.Inspect.C67_debug_file_wrong"], "note": "Missing: Module names (C67_module_wrong) and debug files that appear or vanish after a file's first use (C67_debug_file_wrong)."},
 {"property": "C68", "status": "partial", "theorems": ["Blazesym.Symbolize.C68_count", "Blazesym.Symbolize.C68_answer_partial", "Blazesym.Symbolize.C68_single_partial", "Blazesym.Symbolize.C68_present", "Blazesym.Symbolize.C68_fresh_partial", "Blazesym.Symbolize.C68_breakpad", "Blazesym.Symbolize.C68_gsym", "Blazesym.Symbolize.C68_plain", "Blazesym.Symbolize.C68_module_wrong"], "note": "Missing: Debug information, archive members and the vDSO: only for orderly histories (a file is used under one name and keeps its debug files). Without that it is false: C68_module_wrong, C67_debug_file_wrong, C59_debug_syms_ignored_wrong."},
 {"property": "C69", "status": "proved", "theorems": ["Blazesym.Symbolize.C69_cached", "Blazesym.Symbolize.C69_evict", "Blazesym.Symbolize.C69_cached_maps", "Blazesym.Symbolize.C69_evict_process", "Blazesym.Symbolize.C69_evict_alias_wrong", "Blazesym.Symbolize.C69_evict_dispatched", "Blazesym.Symbolize.C69_register_twice"], "note": "Model: Session/State, Cache/FileCache, Cache/ElfCache. Method: invariants over all later histories."},
 {"property": "C70", "status": "partial", "theorems": ["Blazesym.Symbolize.C70_kernel", "Blazesym.Symbolize.C70_remembers", "Blazesym.Symbolize.C70_debug_partial", "Blazesym.Symbolize.C70_stays", "Blazesym.Symbolize.C70_origin", "Blazesym.Symbolize.C70_unchanged", "Blazesym.Symbolize.C70_modules_wrong", "Blazesym.Symbolize.C70_kaslr_wrong", "Blazesym.Symbolize.C70_retry_wrong", "Blazesym.Symbolize.C70_auto_reload_wrong"], "note": "Missing: Debug information: only for orderly histories (a file is used under one name and keeps its debug files). That what is remembered is up to date is false: C70_modules_wrong, C70_kaslr_wrong. Kallsyms files must be text (C70_retry_wrong), and files are reloaded also if this is turned off (C70_auto_reload_wrong)."},
 {"property": "C71", "status": "partial", "theorems": ["Blazesym.Kernel.C71_origin", "Blazesym.Kernel.C71_location_partial", "Blazesym.Kernel.C71_unloaded", "Blazesym.Kernel.C71_no_calls", "Blazesym.Kernel.C71_stays", "Blazesym.Kernel.C71_ends", "Blazesym.Kernel.C71_shared_tag_wrong", "Blazesym.Kernel.C71_reload_wrong", "Blazesym.Kernel.C71_race_wrong"], "note": "Missing: If several programs have the same tag (C71_shared_tag_wrong), a program was reloaded (C71_reload_wrong) or any program is unloaded meanwhile (C71_race_wrong), the location is wrong or missing."},
 {"property": "C72", "status": "partial", "theorems": ["Blazesym.Symbolize.C72_elf_partial", "Blazesym.Symbolize.C72_process_partial", "Blazesym.Symbolize.C72_vdso_partial", "Blazesym.Symbolize.C72_no_vdso", "Blazesym.Symbolize.C72_archive_partial", "Blazesym.Symbolize.C72_archive_dispatched", "Blazesym.Symbolize.C72_archive_outside", "Blazesym.Symbolize.C72_perf_map_partial", "Blazesym.Symbolize.C72_total", "Blazesym.Symbolize.C72_debug_partial", "Blazesym.Symbolize.C72_caching_partial", "Blazesym.Symbolize.C72_debug_file_partial", "Blazesym.Symbolize.C72_debug_archive_partial", "Blazesym.Symbolize.C72_debug_caching_partial"], "note": "Missing: A symbol of the lowest start is not found from beyond its start (see C04), nested functions in debug information (C62_nested_wrong), functions at the end of the address space in perf maps."},
 {"property": "C73", "status": "partial", "theorems": ["Blazesym.Symbolize.C73_offset", "Blazesym.Symbolize.C73_index", "Blazesym.Symbolize.C73_kernel_partial", "Blazesym.Symbolize.C73_symbolizer_partial", "Blazesym.Symbolize.C73_debug_partial", "Blazesym.Symbolize.C73_debug_symbolizer_partial"], "note": "Missing: A symbol of the lowest start is not found from beyond its start (see C04); nested functions in debug information (C62_nested_wrong); modules that overlap (C32_overlap_missed)."},
 {"property": "C74", "status": "partial", "theorems": ["Blazesym.CApi.C74_output", "Blazesym.CApi.C74_output_total_partial", "Blazesym.CApi.C74_nul_wrong", "Blazesym.CApi.C74_free", "Blazesym.CApi.C74_no_leak", "Blazesym.CApi.C74_free_null"], "note": "Missing: A path with a NUL aborts the program (C74_nul_wrong); vectors that are only used meanwhile are not modelled."},
 {"property": "C75", "status": "partial", "theorems": ["Blazesym.Normalize.C75_answer", "Blazesym.Normalize.C75_no_vdso", "Blazesym.Normalize.C75_like_new", "Blazesym.Normalize.C75_build_id_caching", "Blazesym.Normalize.C75_kept_mappings", "Blazesym.Normalize.C75_mappings_error", "Blazesym.Normalize.C75_normalize_partial", "Blazesym.Normalize.C75_swallowed_partial", "Blazesym.Normalize.C75_archive_build_id_wrong", "Blazesym.Normalize.C75_shape"], "note": "Missing: Failing to read the build ID of an archive member fails the call (C75_archive_build_id_wrong); what is reported per address is as partial as C02; versions of files are assumed to have fixed contents, and all vDSOs to be one."},
 {"property": "C76", "status": "partial", "theorems": ["Blazesym.RoundTrip.C76_address", "Blazesym.RoundTrip.C76_member", "Blazesym.RoundTrip.C76_histories_partial"], "note": "Missing: Code described by perf maps, which normalization knows nothing of, is left out; C76_histories_partial is as partial as C75 (what a run of normalization does in vDSO gaps) and assumes that files do not change in between; members of archives have to be aligned."},
 {"property": "C77", "status": "partial", "theorems": ["Blazesym.Cli.C77_pid", "Blazesym.Cli.C77_addr", "Blazesym.Cli.C77_paste", "Blazesym.Cli.C77_symbolize_several", "Blazesym.Cli.C77_symbolize_one", "Blazesym.Cli.C77_normalize_partial", "Blazesym.Cli.C77_normalize_vdso_wrong", "Blazesym.Cli.C77_lookup_partial", "Blazesym.Cli.C77_dump_partial", "Blazesym.Cli.C77_lookup_long_name_panics", "Blazesym.Cli.C77_dump_long_name_panics", "Blazesym.Cli.C77_columns", "Blazesym.Cli.C77_build_id"], "note": "Missing: Addresses in the vDSO make normalization panic (C77_normalize_vdso_wrong). Names of 65535 bytes or more make listing symbols panic (C77_lookup_long_name_panics, C77_dump_long_name_panics). Names and paths that contain line breaks or the separators of the format are excluded."},
 {"property": "C78", "status": "partial", "theorems": ["Blazesym.CApi.Trace.C78_lines", "Blazesym.CApi.Trace.C78_division", "Blazesym.CApi.Trace.C78_program", "Blazesym.CApi.Trace.C78_determined", "Blazesym.Cli.Trace.C78_cli_partial", "Blazesym.Cli.Trace.C78_debug_wrong"], "note": "Missing: What is at level DEBUG is shown as INFO by the command line tool (C78_debug_wrong)."},
 {"property": "C79", "status": "partial", "theorems": ["Blazesym.Dwarf.C79_names_partial", "Blazesym.Dwarf.C79_no_language", "Blazesym.Dwarf.C79_debug_partial", "Blazesym.Dwarf.C79_inlined_wrong", "Blazesym.Dwarf.C79_split_wrong", "Blazesym.Symbolize.C79_scheme"], "note": "Missing: The language of an inlined function is taken to be that of the function it is inlined into (C79_inlined_wrong); the language of a split unit is looked for in its stub only (C79_split_wrong)."},
 {"property": "C80", "status": "partial", "theorems": ["Blazesym.Breakpad.C80_places_partial", "Blazesym.Breakpad.C80_first_record", "Blazesym.Breakpad.C80_unknown_record", "Blazesym.Breakpad.C80_empty", "Blazesym.Breakpad.C80_unfinished", "Blazesym.Breakpad.C80_late_module", "Blazesym.Breakpad.C80_line_wrong"], "note": "Missing: Lines are numbered from the broken record on, not from the start of the file (C80_line_wrong)."},
 {"property": "C81", "status": "partial", "theorems": ["Blazesym.Cli.C81_elf_partial", "Blazesym.Cli.C81_process_partial", "Blazesym.Cli.C81_elf_debug_partial", "Blazesym.Cli.C81_kernel_partial", "Blazesym.Cli.C81_no_file", "Blazesym.Cli.C81_breakpad_partial", "Blazesym.Cli.C81_gsym_partial"], "note": "Missing: Unusual symbols and layouts named by Absent, files used under two names in one request, what C66 says about which debug information belongs to a file; with debug information errors for single addresses in a request for several are shown as missing symbols; names with line breaks or separators."},
 {"property": "C82", "status": "partial", "theorems": ["Blazesym.Symbolize.C82_breakpad_partial", "Blazesym.Symbolize.C82_breakpad_total_partial", "Blazesym.Symbolize.C82_breakpad_refused_partial", "Blazesym.Symbolize.C82_gsym_partial", "Blazesym.Symbolize.C82_gsym_total_partial", "Blazesym.Symbolize.C82_gsym_above", "Blazesym.Symbolize.C82_gsym_refused", "Blazesym.Symbolize.C82_breakpad_history_partial", "Blazesym.Symbolize.C82_gsym_history_partial"], "note": "Missing: Functions and lines of Breakpad files that reach the end of the address space (C21_overflow_panics), overlapping records (any of those that start last), lines of 65535 bytes or more (C24_long_line_panics); damaged entries of GSYM files, entries that share their start, data in memory that is not aligned (C18_unaligned_unknown)."},
 {"property": "C83", "status": "partial", "theorems": ["Blazesym.Cli.C83_cli_lookup_elf_partial", "Blazesym.Cli.C83_cli_lookup_breakpad_partial", "Blazesym.Cli.C83_cli_dump_elf_partial", "Blazesym.Cli.C83_cli_dump_debug_partial", "Blazesym.Cli.C83_cli_dump_breakpad_partial", "Blazesym.Inspect.C83_elf_partial", "Blazesym.Inspect.C83_elf_all_partial", "Blazesym.Inspect.C83_breakpad", "Blazesym.Inspect.C83_breakpad_all", "Blazesym.Inspect.C83_debug_partial", "Blazesym.Inspect.C83_debug_all_partial"], "note": "Missing: The path reported for a file that was used under another path before (C67_module_wrong), a callback that stops is called again for the dynamic table (C45_break_ignored), several functions of one unit with the same name (C65), debug information that changes between calls; symbols that may be overlooked because an equal or smaller one starts with them (C07); names that cannot be printed (C77)."},
 {"property": "C84", "status": "partial", "theorems": ["Blazesym.Go.C84_symbolize_partial", "Blazesym.Go.C84_panics", "Blazesym.Go.C84_inlined_panics", "Blazesym.Go.C84_empty_data_panics", "Blazesym.Go.C84_new_partial", "Blazesym.Go.C84_reason_partial", "Blazesym.Go.C84_reason_wrong", "Blazesym.Go.C84_nul_wrong"], "note": "Missing: Strings with NULs are cut off (C84_nul_wrong), empty GSYM data panics (C84_empty_data_panics), so do more than 2^30 inlined functions (C84_inlined_panics); one reason has no constant (C84_reason_wrong); goroutines that are moved between threads (C85)."},
 {"property": "C85", "status": "partial", "theorems": ["Blazesym.Go.C85_any", "Blazesym.Go.C85_locked_partial", "Blazesym.Go.C85_new", "Blazesym.Go.C85_lost_wrong", "Blazesym.Go.C85_stale_wrong"], "note": "Missing: Goroutines that are moved to another thread lose their error (C85_lost_wrong) or report that of another one (C85_stale_wrong)."},
 {"property": "C86", "status": "partial", "theorems": ["Blazesym.Go.C86_released_partial", "Blazesym.Go.C86_any", "Blazesym.Go.C86_new_any", "Blazesym.Go.C86_new_partial", "Blazesym.Go.C86_leak_wrong", "Blazesym.Go.C86_empty_dirs_wrong"], "note": "Missing: An error of another goroutine makes results leak (C86_leak_wrong), and so does an empty list of debug directories (C86_empty_dirs_wrong)."},
 {"property": "C87", "status": "partial", "theorems": ["Blazesym.CApi.C87_objects", "Blazesym.CApi.C87_results", "Blazesym.CApi.C87_memory", "Blazesym.CApi.C87_all_freed", "Blazesym.CApi.C87_symbolize", "Blazesym.CApi.C87_bad_request", "Blazesym.CApi.C87_cache", "Blazesym.CApi.C87_settings", "Blazesym.CApi.C87_create", "Blazesym.CApi.C87_bad_options", "Blazesym.CApi.C87_free", "Blazesym.CApi.C87_free_results", "Blazesym.CApi.C87_elf_partial", "Blazesym.CApi.C87_process_partial"], "note": "Missing: The theorems by contents of files have the limits of C68 and C72 (files used under one name, symbols before the first one). A program that goes on after the library was aborted, and calls that overlap on one symbolizer, are not covered. The memory the library uses internally is not modelled."},
 {"property": "C88", "status": "partial", "theorems": ["Blazesym.CApi.C88_call", "Blazesym.CApi.C88_no_call", "Blazesym.CApi.C88_settings", "Blazesym.CApi.C88_file_partial", "Blazesym.CApi.C88_failed", "Blazesym.CApi.C88_debug_syms", "Blazesym.CApi.C88_usual"], "note": "Missing: What is reported has the limits of C72 (functions that are not nested, symbols before the first one). The memory that opening a file uses is not modelled, and in histories of calls (C87) the callback is taken to answer the same at all times. Whether a request asks for debug information makes no difference for such mappings (C88_debug_syms)."},
 {"property": "C89", "status": "partial", "theorems": ["Blazesym.Go.C89_objects", "Blazesym.Go.C89_memory", "Blazesym.Go.C89_new", "Blazesym.Go.C89_answers_partial", "Blazesym.Go.C89_any", "Blazesym.Go.C89_panics", "Blazesym.Go.C89_close", "Blazesym.Go.C89_close_twice_wrong", "Blazesym.Go.C89_use_after_close_wrong", "Blazesym.Go.C89_all_closed_partial", "Blazesym.Go.C89_elf_partial", "Blazesym.Go.C89_process_partial", "Blazesym.Go.C89_other_closed_wrong"], "note": "Missing: A symbolizer that is closed keeps its pointer: closing it again is undefined behaviour (C89_close_twice_wrong) or closes another one (C89_other_closed_wrong), and using it is undefined behaviour (C89_use_after_close_wrong). Goroutines that are not locked to their thread have the limits of C85 and C86; what is reported has those of C68 and C72."},
 {"property": "C90", "status": "partial", "theorems": ["Blazesym.CApi.C90_objects", "Blazesym.CApi.C90_results", "Blazesym.CApi.C90_memory", "Blazesym.CApi.C90_all_freed", "Blazesym.CApi.C90_normalize", "Blazesym.CApi.C90_bad_request", "Blazesym.CApi.C90_create", "Blazesym.CApi.C90_bad_options", "Blazesym.CApi.C90_free", "Blazesym.CApi.C90_free_results", "Blazesym.CApi.C90_output_partial"], "note": "Missing: What is reported has the limits of C75 (the vDSO of other processes, gaps of a vDSO, one file under several records); a path with a NUL aborts the program (C74_nul_wrong, and in C90_normalize). A program that goes on after the library was aborted, and calls that overlap on one normalizer, are not covered. The memory the library uses internally is not modelled."},
 {"property": "C91", "status": "partial", "theorems": ["Blazesym.CApi.C91_objects", "Blazesym.CApi.C91_results", "Blazesym.CApi.C91_memory", "Blazesym.CApi.C91_all_freed", "Blazesym.CApi.C91_inspect", "Blazesym.CApi.C91_name_wrong", "Blazesym.CApi.C91_bad_source", "Blazesym.CApi.C91_create", "Blazesym.CApi.C91_free", "Blazesym.CApi.C91_free_results", "Blazesym.CApi.C91_lookup_partial", "Blazesym.CApi.C91_plain_lookup_partial"], "note": "Missing: A name that is not UTF-8 aborts the program (C91_name_wrong). What is reported has the limits of C67 (files used under one name, debug information that appears later). A program that goes on after the library was aborted, and calls that overlap on one inspector, are not covered. The memory the library uses internally is not modelled."},
 {"property": "C92", "status": "proved", "theorems": ["Blazesym.Elf.Lazy.C92_query", "Blazesym.Elf.Lazy.C92_history", "Blazesym.Elf.Lazy.C92_for_each", "Blazesym.Elf.Lazy.C92_cache", "Blazesym.Elf.Lazy.C92_kept"], "note": "Model: Elf/Lazy (on top of Elf/Symtab, Elf/Image, Elf/Reloc). Method: the parts a parser keeps are a state, and its functions computations on that state; an invariant says that a part that is kept is what is computed from the contents, and by induction over the functions every computation has the result of the functions without state and preserves it."},
 {"property": "C93", "status": "proved", "theorems": ["Blazesym.Dwarf.Lazy.C93_query", "Blazesym.Dwarf.Lazy.C93_history", "Blazesym.Dwarf.Lazy.C93_for_each", "Blazesym.Dwarf.Lazy.C93_kept"], "note": "Model: Dwarf/Lazy (on top of Dwarf/Units and Dwarf/Resolver). Method: the cells of all units and functions are a state, and the functions computations on that state, with storing into a filled cell as a panic; which units are used while references are followed is left open; an invariant says that what is kept is what is decoded from the contents, and by induction every computation has the result of the functions without state and preserves it."},
 {"property": "C94", "status": "proved", "theorems": ["Blazesym.CApi.Abi.C94_layout", "Blazesym.CApi.Abi.C94_elements", "Blazesym.CApi.Abi.C94_agree", "Blazesym.CApi.Abi.C94_agree_variant", "Blazesym.CApi.Abi.C94_usable", "Blazesym.CApi.Abi.C94_inputs_dense", "Blazesym.CApi.Abi.C94_dense64", "Blazesym.CApi.Abi.C94_numbers", "Blazesym.CApi.Abi.C94_offsets", "Blazesym.CApi.Abi.C94_input_offsets", "Blazesym.CApi.Abi.C94_stable", "Blazesym.CApi.Abi.C94_versions", "Blazesym.CApi.Abi.C94_results_aligned", "Blazesym.CApi.Abi.C94_inspect_aligned", "Blazesym.CApi.Abi.C94_meta_aligned"], "note": "Model: CApi/Abi (on top of CApi/Input). Method: a type is a function from targets to sizes and alignments; both declarations of every structure, in Rust and in the header, are transcribed and shown to have the same layout on every target; the layout rule is shown to be correct by induction over the members, versions by the offsets of a common beginning, buffers by divisibility."},
 {"property": "C95", "status": "proved", "theorems": ["Blazesym.CApi.C95_views", "Blazesym.CApi.C95_objects", "Blazesym.CApi.C95_results", "Blazesym.CApi.C95_memory", "Blazesym.CApi.C95_all_freed", "Blazesym.CApi.C95_untouched", "Blazesym.CApi.C95_calls"], "note": "Model: CApi/Whole (on top of CApi/Program, CApi/NormProgram and CApi/InspProgram). Method: programs of all kinds of calls are an inductive predicate; by induction over them, what one kind of object sees is a program of C87, C90 or C91 in which the memory of the other kinds belongs to the program; that a call leaves other memory alone is shown for each call."},
 {"property": "C96", "status": "partial", "theorems": ["Blazesym.CApi.C96_round_trip_partial"], "note": "Missing: The limits of C76 and C90 apply: histories in which files are versioned, no addresses between the symbols of a vDSO, no map files and perf maps; mappings that a normalizer kept have to be those of the process. The C API has no function for offsets in archives."},
 {"property": "C97", "status": "proved", "theorems": ["Blazesym.Opened.C97_gsym", "Blazesym.Opened.C97_gsym_history", "Blazesym.Opened.C97_breakpad", "Blazesym.Opened.C97_breakpad_history", "Blazesym.Opened.C97_ksym", "Blazesym.Opened.C97_ksym_history", "Blazesym.Opened.C97_visit_plain"], "note": "Model: Opened/Model: the resolvers with the buffer of inlined functions and the indexes of names as state, frames pushed before an error included. Method: the outcome of every function with a state is that of the function without (Gsym/Resolver, Breakpad/Resolver, Kernel/Ksym), by induction over the nested inline information; an invariant for the indexes; induction over requests."},
 {"property": "C98", "status": "partial", "theorems": ["Blazesym.TwoWay.C98_elf_files_partial", "Blazesym.TwoWay.C98_elf_files_back_partial", "Blazesym.TwoWay.C98_breakpad_files", "Blazesym.TwoWay.C98_elf_by_name_partial", "Blazesym.TwoWay.C98_elf_by_address_partial", "Blazesym.TwoWay.C98_breakpad_by_name", "Blazesym.TwoWay.C98_breakpad_by_address", "Blazesym.TwoWay.C98_ksym_by_name", "Blazesym.TwoWay.C98_ksym_by_address", "Blazesym.TwoWay.C98_elf_wrong", "Blazesym.TwoWay.C98_elf_hidden"], "note": "Missing: ELF symbols that are in .dynsym only while something in .symtab covers their address (C98_elf_wrong), or that share their name with a symbol in .symtab (C98_elf_hidden). Functions and lines of Breakpad files that reach the end of the address space (C21_overflow_panics). Names in debug information (C64_ranges_wrong, C65_all_wrong) are left out."},
 {"property": "C99", "status": "partial", "theorems": ["Blazesym.Listing.C99_elf_partial", "Blazesym.Listing.C99_breakpad", "Blazesym.Listing.C99_ksym_partial", "Blazesym.Listing.C99_elf_wrong", "Blazesym.Listing.C99_inspector_elf_partial", "Blazesym.Listing.C99_inspector_breakpad"], "note": "Missing: Names that are in both .symtab and .dynsym of an ELF file (C99_elf_wrong); kernel symbols of other names are found as well (C31_reports_others). Listings name no module, so modules are not compared. Debug information is left out (C65_all_wrong)."},
 {"property": "C100", "status": "partial", "theorems": ["Blazesym.Places.C100_offsets", "Blazesym.Places.C100_process", "Blazesym.Places.C100_archive", "Blazesym.Places.C100_histories_partial"], "note": "Missing: Histories are the orderly ones of C68. For processes whose files are opened through map_files, equality is proved without debug information, where the linked file has the same contents. Members of archives have to be aligned to 8 bytes."},
 {"property": "C101", "status": "partial", "theorems": ["Blazesym.Extent.C101_inside_partial", "Blazesym.Extent.C101_placed", "Blazesym.Extent.C101_histories_partial", "Blazesym.Extent.C101_debug_wrong", "Blazesym.Extent.C101_kernel_wrong"], "note": "Missing: For symbols of a kernel image that is not loaded where it was linked for, the claim is false (C101_kernel_wrong, see also C34_offset_wrong); the kernel is left out. Debug information must not give a function both a list of ranges and a lowest address with an end, which the DWARF standard does not allow: the symbol of such a function may end before the address (C101_debug_wrong). Histories are the orderly ones of C68."},
 {"property": "C102", "status": "partial", "theorems": ["Blazesym.Options.C102_kernel_partial", "Blazesym.Options.C102_bpf_wrong", "Blazesym.Options.C102_demangle", "Blazesym.Options.C102_source_partial", "Blazesym.Options.C102_histories_partial", "Blazesym.Options.C102_source_histories_partial", "Blazesym.Options.C102_gsym_wrong", "Blazesym.Symbolize.C102_process_batch_partial"], "note": "Missing: Demangling (C102_demangle) is proved for all sources. For source locations and inlined functions the kernel is covered if the lines of BPF programs can be read (C102_kernel_partial); if not, the symbol itself may change (C102_bpf_wrong). For GSYM data the name may depend on whether inlined functions are asked for, as it is then taken from the inline information (C102_gsym_wrong). Options of a process source are covered for single addresses by C44, for batches if dispatchers go by name, as in C43. Histories are the orderly ones of C68."}
]}
