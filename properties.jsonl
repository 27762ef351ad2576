{"id": "C01", "title": "Batch results come back one per input, in input order", "statement": "Processing a batch of addresses through the internal sort-process-unsort step returns exactly as many results as inputs, and the i-th result is the one that was produced for the i-th input address, whatever the order and duplication of the inputs. The handler sees the inputs in ascending order, and every input exactly once.", "quantifier": "every finite list of addresses (any length, order, duplicates) and every per-address handler, including handlers that fail", "why_tests_cant": "the reordering is an in-place cycle-swap loop over an arbitrary permutation; tests cover a few permutations only", "anchors": ["src/util.rs: reorder, with_ordered_elems"]}
{"id": "C02", "title": "User address normalization is correct per address", "statement": "Given the memory map of a process (entries ascending and disjoint) and a set of addresses, the output for an address that lies in a file-backed entry is addr - entry.start + entry.file_offset together with the metadata (path, build id) of exactly that entry; an address in no relevant entry is reported unknown, carrying the reason and (for unmapped addresses) the address itself. The result for an address depends on the maps and that address only, not on the rest of the batch or the order.", "quantifier": "every well formed maps listing and every list of addresses", "why_tests_cant": "the algorithm walks two sequences in lock step; a skipped or reused entry shows only for particular interleavings", "anchors": ["src/normalize/user.rs: normalize_sorted_user_addrs_with_entries, handle_entry_addr", "src/normalize/normalizer.rs: normalize_user_addrs_iter"]}
{"id": "C03", "title": "Normalization metadata indices are always valid and shared", "statement": "Every output of a normalization refers to an existing metadata record, that record describes the file of the mapping the address lies in, one mapping path gets one record, unknown reasons are stored at most once each, and no record is unreferenced.", "quantifier": "every maps listing and every address list", "why_tests_cant": "index bookkeeping via two side tables; an off-by-one would show only for particular interleavings of known and unknown addresses", "anchors": ["src/normalize/user.rs: NormalizationHandler, add_unknown_addr, add_normalized_offset"]}
{"id": "C04", "title": "ELF address lookup is sound", "statement": "If looking up an address in an ELF symbol table returns a symbol, then that symbol is defined, is of a supported type, starts at or below the address, and covers the address (or has size zero in .symtab; in .dynsym a zero sized symbol matches only its exact address); the reported size is absent exactly when the recorded size is zero.", "quantifier": "every symbol table (any order, duplicates, overlaps) and every address", "why_tests_cant": "tables are adversarial inputs of any size; the search combines a binary search with a scan", "anchors": ["src/elf/parser.rs: find_sym, create_by_addr_idx"]}
{"id": "C05", "title": "ELF address lookup is complete for the nearest start", "statement": "If some usable symbol starting at the greatest start address not above the queried address covers it, then the lookup finds a covering symbol with that start. Where the code misses such a symbol, the exact condition is identified.", "quantifier": "every symbol table and every address", "why_tests_cant": "needs all tables with duplicate start addresses and all sizes", "anchors": ["src/elf/parser.rs: find_sym", "src/util.rs: find_match_or_lower_bound_by_key"]}
{"id": "C06", "title": "Lowest-match binary search", "statement": "Searching a sorted sequence for a key returns the index of the first element equal to the key, and reports absence exactly when no element equals it.", "quantifier": "every sorted sequence and every key", "why_tests_cant": "binary search with backward adjustment; must hold for all lengths and all runs of duplicates", "anchors": ["src/util.rs: find_lowest_match_by, find_lowest_match_by_key"]}
{"id": "C07", "title": "Match-or-lower-bound search", "statement": "Searching a sorted sequence for a key returns an index whose element is the greatest element not above the key; nothing is returned exactly when all elements are above the key; among equal elements the first one is returned (documented contract).", "quantifier": "every sorted sequence and every key", "why_tests_cant": "boundary cases appear only with particular duplicate runs at particular positions", "anchors": ["src/util.rs: find_match_or_lower_bound_by_key"]}
{"id": "C08", "title": "ELF name lookup returns exactly the defined symbols of that name", "statement": "Looking up a name in an ELF file reports the addresses of exactly those defined symbols whose name equals the query, each once; .dynsym is consulted only if .symtab has no match.", "quantifier": "every symbol table, string table and query name", "why_tests_cant": "requires all tables with equal and prefix-related names", "anchors": ["src/elf/parser.rs: create_str2sym, find_addr_impl, find_addr, ensure_str2dynsym"]}
{"id": "C09", "title": "File offset to virtual offset translation", "statement": "Translating a file offset of an ELF file yields p_vaddr + (offset - p_offset) of the first loadable segment whose file range contains it, and nothing if there is no such segment; translating a symbol's virtual address to a file offset through its section and back through the segment covering that section is the identity.", "quantifier": "every program header table, section table and offset", "why_tests_cant": "header values are arbitrary 64 bit numbers; overlap and boundary cases are unbounded", "anchors": ["src/elf/parser.rs: file_offset_to_virt_offset, find_file_offset, file_offset"]}
{"id": "C10", "title": "ELF parsing never reads outside the file", "statement": "Every section, segment, header or string handed out while parsing an ELF image is a sub-slice of the image at the advertised offset; out-of-range headers produce an error, not a panic or an out-of-bounds access.", "quantifier": "every byte string presented as an ELF file", "why_tests_cant": "malformed files form an unbounded domain", "anchors": ["src/elf/parser.rs: parse_ehdr, parse_shdrs, parse_phdrs, section_data, section_data_raw, symbol_name"]}
{"id": "C11", "title": "Cursor reads account for every byte", "statement": "Each read from a byte cursor either returns exactly the next bytes and advances by exactly that much, or fails and leaves the cursor where it was; concatenating what was read with what remains gives the original data.", "quantifier": "every byte slice, position and requested length", "why_tests_cant": "must hold for all lengths including those that exceed the slice", "anchors": ["src/util.rs: ReadRaw for &[u8] (ensure, read_slice, read_array, read_cstr, align, skip)"]}
{"id": "C12", "title": "LEB128 decoding inverts encoding", "statement": "Decoding the standard (un)signed LEB128 encoding of a 64 bit value, followed by arbitrary bytes, returns the value and leaves the trailing bytes; a truncated encoding is reported as missing data.", "quantifier": "every 64 bit value and every trailing data", "why_tests_cant": "2^64 values times arbitrary continuations", "anchors": ["src/util.rs: read_u64_leb128, read_i64_leb128"]}
{"id": "C13", "title": "File cache serves current file contents", "statement": "With auto-reload on, asking the file cache for an unpinned path always yields an entry opened for the file's present identity (device, inode, size, mtime); without auto-reload, or when pinned, the entry that was current when first loaded or pinned is returned. At no time is an entry for one file identity returned for another.", "quantifier": "every finite history of lookups, file replacements, pins, unpins and evictions", "why_tests_cant": "histories are unbounded; bugs need particular interleavings of replacements", "anchors": ["src/file_cache.rs: FileCache::entry, get_or_insert, set_pin_state"]}
{"id": "C14", "title": "File cache reference accounting and eviction", "statement": "After any history, the reference count of a cached file equals the number of paths that refer to it, every referenced file is cached, nothing unreferenced stays cached, and evicting a path removes all its state while keeping files other paths still use.", "quantifier": "every finite history of cache operations over any number of paths, including hard links and replaced files", "why_tests_cant": "leak and premature free bugs appear only after specific histories", "anchors": ["src/file_cache.rs: get_or_insert, evict"]}
{"id": "C15", "title": "A failed cache request changes nothing", "statement": "If explicitly caching an ELF file fails, previously cached data is untouched and is used afterwards as if no failure occurred (documented).", "quantifier": "every cache history and every failure point", "why_tests_cant": "failure points multiply with histories", "anchors": ["src/symbolize/symbolizer.rs: cache", "src/file_cache.rs"]}
{"id": "C16", "title": "Process maps lines parse to what the kernel printed", "statement": "For every mapping the kernel can print in /proc/<pid>/maps format, parsing the printed line returns exactly the mapping's range, permissions, offset, inode/device and path (or pseudo path component, or none).", "quantifier": "every mapping record: addresses, offset, permissions, device, inode, and path bytes (including spaces and '(deleted)')", "why_tests_cant": "formatting/parsing over unbounded field values", "anchors": ["src/maps.rs: parse_maps_line, parse_path_name, parse_mode_str"]}
{"id": "C17", "title": "Maps iteration keeps exactly the relevant entries in order", "statement": "Parsing a maps file yields exactly the readable or executable entries, in file order; a malformed line yields an error in its place.", "quantifier": "every maps text", "why_tests_cant": "unbounded text", "anchors": ["src/maps.rs: MapsEntryIter, filter_relevant, parse_filtered"]}
{"id": "C18", "title": "GSYM address lookup", "statement": "Looking up an address in a GSYM file returns the entry with the greatest start address not above it, and symbolization through it reports that entry's name and start; an address outside the entry's size is not attributed to it.", "quantifier": "every GSYM address table (1,2,4,8 byte offsets) and every address", "why_tests_cant": "table sizes and offset widths are unbounded", "anchors": ["src/gsym/parser.rs: find_addr, addr_at, addr_info", "src/gsym/resolver.rs: find_sym"]}
{"id": "C19", "title": "GSYM line table execution", "statement": "Running a GSYM line table program for an address returns the last row whose address is not above the queried address; program decoding is the inverse of the GSYM encoding.", "quantifier": "every line program and every address", "why_tests_cant": "programs are unbounded instruction sequences", "anchors": ["src/gsym/linetab.rs: run_op", "src/gsym/resolver.rs: parse_line_tab_info"]}
{"id": "C20", "title": "GSYM inline information", "statement": "Parsing GSYM inline information for an address returns exactly the chain of nested inline records containing the address, outermost first, skipping siblings without losing synchronisation.", "quantifier": "every inline tree of any depth and breadth, and every address", "why_tests_cant": "trees are unbounded; a skipped child desynchronises the decoder only for some shapes", "anchors": ["src/gsym/inline.rs: parse, skip"]}
{"id": "C21", "title": "Breakpad function lookup", "statement": "Looking up an address in Breakpad symbol data returns a function record containing the address, and finds one whenever the record with the greatest start not above the address contains it.", "quantifier": "every set of FUNC records and every address", "why_tests_cant": "unbounded record sets with duplicates/overlaps", "anchors": ["src/breakpad/types.rs: find_function, find_addr"]}
{"id": "C22", "title": "Breakpad line lookup", "statement": "Within a function, the line reported for an address is the line record whose range contains the address, and none if no record does.", "quantifier": "every sorted line record list and address", "why_tests_cant": "unbounded", "anchors": ["src/breakpad/types.rs: find_line"]}
{"id": "C23", "title": "Breakpad inline stack", "statement": "The inlinee chain of an address has one record per depth 0,1,2,... each containing the address, and stops at the first depth that has no record containing it.", "quantifier": "every sorted set of INLINE records and every address", "why_tests_cant": "unbounded depth", "anchors": ["src/breakpad/types.rs: find_inlinee_at_depth, find_inlinees"]}
{"id": "C24", "title": "A Breakpad file is read as its records say, and anything else is refused", "statement": "A text is accepted as a Breakpad symbol file exactly if it is a sequence of records of the documented form. Number fields of records decode to the value of their digits and overflow is rejected; a FUNC record owns exactly the line and INLINE records that follow it up to the next top-level record. Anything else is rejected as invalid input, and nothing makes the library panic.", "quantifier": "every symbol file text", "why_tests_cant": "unbounded text", "anchors": ["src/breakpad/parser.rs: hex_str, decimal_u32, SymbolParser::parse, parse_func_subline, finish_item, finish"]}
{"id": "C25", "title": "ZIP entries lie inside the archive", "statement": "Every entry enumerated from a ZIP archive has a data range inside the archive's bytes, starting at the reported data offset; encrypted or streamed entries are errors; iteration yields at most the advertised number of records.", "quantifier": "every byte string presented as an archive", "why_tests_cant": "malformed archives form an unbounded domain", "anchors": ["src/zip.rs: parse_entry_at_offset, parse_next_entry, entries"]}
{"id": "C26", "title": "ZIP central directory discovery", "statement": "The end-of-central-directory record used is the valid one nearest the end of the archive within the last 64 KiB window; if none exists opening fails; comments of any permitted length are supported.", "quantifier": "every archive and comment length", "why_tests_cant": "unbounded comment contents (which may contain the magic)", "anchors": ["src/zip.rs: find_cd, try_parse_end_of_cd"]}
{"id": "C27", "title": "APK offsets resolve to the contained ELF file", "statement": "A file offset in an APK is attributed to the first member whose data contains it, and symbolized with the member's own offset (file offset minus data offset).", "quantifier": "every archive layout and offset", "why_tests_cant": "unbounded layouts", "anchors": ["src/symbolize/symbolizer.rs: create_apk_resolver", "src/normalize/normalizer.rs: translate_apk_to_elf", "src/mmap.rs: constrain", "src/apk.rs"]}
{"id": "C28", "title": "Perf map parsing and lookup", "statement": "A perf map parses to exactly its lines' (start, size, name) entries sorted by address, any malformed line fails the whole parse, and looking up an address returns an entry containing it; entries are found when the nearest start contains the address.", "quantifier": "every perf map text and address", "why_tests_cant": "unbounded text; duplicates at one start address", "anchors": ["src/perf_map.rs: parse_perf_map_line, parse_perf_map, find_sym"]}
{"id": "C29", "title": "Constraining a memory mapping stays inside it", "statement": "A constrained view of a mapping covers exactly the requested sub-range of the parent view, is refused when the range leaves the parent view, and nested constraints compose by adding offsets.", "quantifier": "every view, every range, any nesting depth", "why_tests_cant": "offset arithmetic over all 64 bit values and arbitrarily nested views", "anchors": ["src/mmap.rs: Mmap::constrain, Deref"]}
{"id": "C30", "title": "kallsyms parsing and address lookup", "statement": "Loading kallsyms keeps exactly the well-formed lines with non-zero address, sorted by address; looking up a kernel address returns the symbol with the greatest address not above it, unknown only if there is none.", "quantifier": "every kallsyms text and address", "why_tests_cant": "unbounded text", "anchors": ["src/kernel/ksym.rs: load_from_reader, find_ksym"]}
{"id": "C31", "title": "kallsyms name lookup", "statement": "Looking up a kernel symbol name reports exactly the symbols of that name.", "quantifier": "every kallsyms content and name", "why_tests_cant": "depends on what sorts after the name", "anchors": ["src/kernel/ksym.rs: find_addr, create_by_name_idx"]}
{"id": "C32", "title": "Kernel module map lookup", "statement": "Looking up a kernel address in the module list returns the module whose [base, base+size) contains it, if modules are disjoint; parsing keeps exactly the well-formed lines with non-zero base.", "quantifier": "every module list and address", "why_tests_cant": "unbounded lists", "anchors": ["src/kernel/modmap.rs: from_reader, find_module"]}
{"id": "C33", "title": "depmod index lookup", "statement": "Looking up a module name in the modules.dep.bin index terminates on every input and returns the path stored for exactly that name in a well-formed index.", "quantifier": "every index byte string and name; every well-formed trie", "why_tests_cant": "tries of any shape; malformed indices may contain cycles", "anchors": ["src/kernel/depmod.rs: find_path"]}
{"id": "C34", "title": "Kernel address dispatch order", "statement": "A kernel address inside a module is symbolized by that module only; otherwise by vmlinux after subtracting the KASLR offset, falling back to kallsyms when vmlinux has no (sized) symbol; sources not configured are not consulted; the reported symbol offset is the distance of the input address from the symbol start (documented).", "quantifier": "every combination of configured sources, module map, KASLR offset and address", "why_tests_cant": "combinatorial state times 64 bit addresses", "anchors": ["src/kernel/resolver.rs: new, find_sym", "src/symbolize/symbolizer.rs: symbolize_with_resolver"]}
{"id": "C35", "title": "KASLR offset detection", "statement": "If kernel core notes contain KERNELOFFSET, that value is used; if unavailable the difference of runtime and link-time _stext is used; the value is computed once.", "quantifier": "every kcore layout and failure combination", "why_tests_cant": "layouts and failures are unbounded", "anchors": ["src/kernel/kaslr.rs", "src/kernel/cache.rs"]}
{"id": "C36", "title": "DWARF unit search finds all units containing an address", "statement": "The unit search yields exactly the unit ranges containing the probe address, whatever nesting and overlap of ranges.", "quantifier": "every set of unit ranges and every probe", "why_tests_cant": "early termination by running maximum is only wrong for particular overlap patterns", "anchors": ["src/dwarf/units.rs: parse, find_units, find_units_range"]}
{"id": "C37", "title": "DWARF line lookup", "statement": "For line sequences that are disjoint and ascending, the location of an address is the last row at or below the address in the sequence containing it; later rows at the same address win; addresses outside all sequences have no location.", "quantifier": "every line program and probe", "why_tests_cant": "unbounded programs", "anchors": ["src/dwarf/lines.rs: Lines::parse, find_location"]}
{"id": "C38", "title": "DWARF inlined function search", "statement": "For a function's inlined ranges the search returns for each depth 0,1,2,... the inlined function whose range contains the address, stopping at the first depth without one.", "quantifier": "every sorted set of (depth, disjoint range) records and every probe", "why_tests_cant": "unbounded depth and breadth", "anchors": ["src/dwarf/function.rs: find_inlined_functions", "src/dwarf/units.rs: find_inlined_functions"]}
{"id": "C39", "title": "Source locations are attributed to the right inline frame", "statement": "When all locations are known, the outermost function is reported at the call site of the first inlined function, each inlined function at the call site of the next, and the innermost at the location of the address itself.", "quantifier": "every inline depth and every location assignment", "why_tests_cant": "swap chain of unbounded length", "anchors": ["src/dwarf/resolver.rs: fill_code_info", "src/gsym/resolver.rs: fill_code_info", "src/breakpad/resolver.rs"]}
{"id": "C40", "title": "Debug link candidate search", "statement": "The debug file search tries a fixed, finite list of candidate paths, never yields the file that contains the link itself, and tries build-id paths, then configured directories, then the file's own directory, then configured directories combined with the file's ancestor directories.", "quantifier": "every directory list, linkee path, link name and build id", "why_tests_cant": "path lists and depths are unbounded", "anchors": ["src/dwarf/debug_link.rs: DebugFileIter::next, report_or_next"]}
{"id": "C41", "title": "Debug link section parsing", "statement": "A .gnu_debuglink section written per the GNU format (name, NUL, padding to 4, little-endian CRC) parses to that name and CRC; anything shorter is rejected, without panicking.", "quantifier": "every file name, CRC and section content", "why_tests_cant": "unbounded names/padding", "anchors": ["src/dwarf/debug_link.rs: parse_debug_link_section_data", "src/util.rs: align"]}
{"id": "C42", "title": "Source/input combinations", "statement": "Each symbolization source accepts exactly its documented input kinds; any other combination is reported as unsupported, never symbolized under a different interpretation.", "quantifier": "every source and input combination and any address list", "why_tests_cant": "must hold for every address value in all combinations", "anchors": ["src/symbolize/symbolizer.rs: symbolize_impl"]}
{"id": "C43", "title": "Batch symbolization equals single symbolization with folded errors", "statement": "symbolize returns one result per input in order, and its i-th result is what symbolize_single returns for the i-th address, with per-address errors replaced by an unknown marker instead of failing the batch (documented).", "quantifier": "every source, every address list, every pattern of per-address failures", "why_tests_cant": "failure patterns are exponential in the batch size", "anchors": ["src/symbolize/symbolizer.rs: symbolize, symbolize_single, symbolize_impl, symbolize_user_addrs"]}
{"id": "C44", "title": "Process symbolization uses the mapping containing the address", "statement": "For a process source an address is symbolized against the file mapped at it at file offset addr - start + offset; a custom dispatcher takes precedence when it supplies a resolver; perf maps serve only anonymous mappings; unmapped addresses are unknown. The options for the vDSO, for files and for generated code only matter for addresses in the vDSO, in files and in generated code.", "quantifier": "every maps listing, dispatcher behaviour and address", "why_tests_cant": "unbounded maps and dispatch functions", "anchors": ["src/symbolize/symbolizer.rs: handle_entry_addr, handle_elf_addr, process_dispatch_resolver"]}
{"id": "C45", "title": "Symbol iteration honours the filter and early exit", "statement": "Iterating the symbols of a file reports exactly the defined symbols of the requested kind, and stops as soon as the callback asks to stop.", "quantifier": "every symbol table and callback", "why_tests_cant": "callbacks are arbitrary stateful functions", "anchors": ["src/elf/parser.rs: for_each, for_each_sym_impl", "src/kernel/ksym.rs: for_each", "src/inspect/inspector.rs"]}
{"id": "C46", "title": "C API result buffer is exactly filled", "statement": "Converting symbolization results to their C representation allocates exactly the bytes that are then written; no two objects or strings overlap, nothing is written outside the allocation, and reading the C structures back gives the original results (names without interior NUL).", "quantifier": "every list of results, any number of inlined functions and string lengths", "why_tests_cant": "memory safety over unbounded result shapes", "anchors": ["capi/src/symbolize.rs: convert_symbolizedresults_to_c, convert_sym, convert_code_info, make_cstr", "capi/src/util.rs: DynSize"]}
{"id": "C47", "title": "C API error codes are faithful", "statement": "Each error kind maps to a distinct non-zero C error code whose text is that of the kind; zero means success only.", "quantifier": "every error kind and every 16 bit code", "why_tests_cant": "exhaustive over kinds and codes rather than sampled", "anchors": ["capi/src/error.rs: From<ErrorKind>, blaze_err_str"]}
{"id": "C48", "title": "Adding context never changes an error's kind", "statement": "However many context layers are attached to an error its kind stays that of the root cause, and the rendered chain lists all contexts outermost first.", "quantifier": "every error and every number of context layers", "why_tests_cant": "unbounded nesting", "anchors": ["src/error.rs: ErrorImpl::kind, layer_context, Display"]}
{"id": "C49", "title": "Build ID note parsing", "statement": "Reading the build id of an ELF file returns the descriptor of the GNU build-id note stored in the note data; malformed notes never yield bytes outside the section.", "quantifier": "every note section contents", "why_tests_cant": "unbounded contents", "anchors": ["src/normalize/buildid.rs"]}
{"id": "C50", "title": "BPF program tags round trip", "statement": "Parsing the textual form of a BPF program tag gives back the tag, and only 16 hexadecimal characters are accepted; kernel symbols with BPF names split into tag and name.", "quantifier": "every 8 byte tag and every string", "why_tests_cant": "2^64 tags and unbounded strings", "anchors": ["src/kernel/bpf/prog.rs: BpfTag, BpfProg::parse"]}
{"id": "C51", "title": "Memoizing map never stores failed computations", "statement": "An insert-only map returns for a key the first successfully computed value for it for ever after (until removed), failed computations leave the map unchanged, and other keys are unaffected.", "quantifier": "every history of operations", "why_tests_cant": "unbounded histories", "anchors": ["src/insert_map.rs"]}
{"id": "C52", "title": "Hexadecimal parsing", "statement": "Parsing a hexadecimal byte string yields the number it denotes exactly when all bytes are hexadecimal digits (and it fits 64 bits).", "quantifier": "every byte string", "why_tests_cant": "unbounded strings", "anchors": ["src/util.rs: from_radix_16, ascii_to_hexdigit"]}
{"id": "C53", "title": "One parser per file, shared by all views, and no panic on lookup", "statement": "Asking repeatedly for the plain or the debug-info view of an ELF file parses the file once and both views share the parsed file; a lookup fails only with an error of the file system, of parsing or of loading debug information, never by panicking.", "quantifier": "every history of lookups, cache requests and evictions in a changing file system, including lookups nested in the loading of debug information", "why_tests_cant": "unbounded histories; re-entrant lookups hit the same cache slot only for particular file layouts", "anchors": ["src/elf/resolver.rs: FileCache::elf_resolver, ElfResolverData", "src/dwarf/resolver.rs: try_deref_debug_link, try_find_dwp"]}
{"id": "C54", "title": "ELF relocations of object files", "statement": "Reading a section of a relocatable object together with its relocations yields, for every relocation entry that targets the section, the offset, kind and size-independent value it designates (symbol value plus addend where the entry has one); other files have no relocations. Addresses and offsets read from a debug section of an object are the stored numbers relocated in that way; split debug information is read as it is stored.", "quantifier": "every object file, section, relocation table and place in a debug section", "why_tests_cant": "relocation tables are unbounded and come in two layouts and two widths", "anchors": ["src/elf/parser.rs: parse_section_relocs", "src/elf/relocations.rs: Relocations", "src/elf/types.rs: Elf64_Rel, Elf64_Rela", "src/dwarf/reader.rs: load_section, load_dwo_section", "src/dwarf/relocate.rs: Relocate"]}
{"id": "C55", "title": "Splitting a source path into directory and file name", "statement": "The directory and file name reported for a source file are the path split at its last component: joining them gives a path with the same components, the file name has no separator, and a path is not split exactly if it has no component.", "quantifier": "every byte string as a path", "why_tests_cant": "repeated separators, dots and roots combine in unboundedly many ways", "anchors": ["src/breakpad/resolver.rs: find_source_location", "src/gsym/resolver.rs: fill_code_info"]}
{"id": "C56", "title": "Breakpad name lookup", "statement": "Looking up a name in Breakpad symbol data reports exactly the functions with that name, each once and in address order, with their address and size.", "quantifier": "every symbol file and name", "why_tests_cant": "duplicate names and unbounded files", "anchors": ["src/breakpad/types.rs: create_by_name_idx, find_addr", "src/breakpad/resolver.rs: find_addr"]}
{"id": "C57", "title": "BPF program information by tag", "statement": "Looking up the BPF program a kernel symbol's tag belongs to yields a program that has the tag (as its own or a subprogram's), whenever one is loaded; repeating the lookup yields the same program; a failing system call is reported and outdated programs are dropped when an unknown tag is looked up.", "quantifier": "every set of loaded programs, tags shared between them and every history of lookups", "why_tests_cant": "tags can be shared by any number of programs, and the answer depends on what was looked up before", "anchors": ["src/kernel/bpf/prog.rs: BpfInfoCache::lookup"]}
{"id": "C58", "title": "BPF source locations", "statement": "The source location of an address inside a BPF program is that of the program's line record with the greatest address not above it: file from the program's BTF strings, line and column from the packed field; records without line data or file are an error, and addresses before the first record have no location.", "quantifier": "every list of line records, BTF string section and address", "why_tests_cant": "unbounded record lists and string sections", "anchors": ["src/kernel/bpf/prog.rs: query_line_info, retrieve_code_info, resolve", "src/kernel/bpf/btf.rs: name, raw_strs", "src/kernel/bpf/sys.rs: bpf_line_info"]}
{"id": "C59", "title": "Archive members are resolved the same whatever was asked before", "statement": "Symbolizing an offset of an archive that does not change gives the same result whatever has been symbolized with the archive before: the first member containing the offset, with debug information exactly if the request asks for it.", "quantifier": "every archive, every history of earlier requests for it and every later request", "why_tests_cant": "histories are unbounded and the outcome depends on the order of requests of different kinds", "anchors": ["src/symbolize/symbolizer.rs: create_apk_resolver, apk_resolver, default_apk_dispatcher"]}
{"id": "C60", "title": "Input structures of other header versions keep their meaning", "statement": "An input structure of the C interface that declares its own size is taken for the members it has, missing members counting as zero, and is refused as invalid input exactly if it is smaller than its size member or has a byte other than zero from the reserved member on; nothing beyond the declared size is read, and paths, arrays and flags reach the library as the C header lays them out.", "quantifier": "every input structure type, every declared size and every content of memory, with arrays of every length and alignment", "why_tests_cant": "declared sizes and memory contents are unbounded, and older and newer programs cannot all be tested", "anchors": ["capi/src/lib.rs: input_zeroed!, input_sanitize!", "capi/src/util.rs: is_mem_zero, slice_from_user_array", "capi/src/symbolize.rs: From<blaze_symbolize_src_process>, From<blaze_symbolize_src_kernel>, blaze_symbolizer_new_opts", "capi/src/normalize.rs: blaze_normalizer_new_opts", "capi/src/inspect.rs: blaze_inspect_elf_src"]}
{"id": "C61", "title": "The last error belongs to the last call of the thread", "statement": "After any history of calls to the C interface by any threads, the last error of a thread is the one set by its own last fallible call and is OK if it made none; a function returning a pointer returns NULL if and only if it set an error, except where NULL also stands for an empty result; and the error is the code of the failure that happened.", "quantifier": "every interleaving of calls of every number of threads with every outcome of the library and the allocator", "why_tests_cant": "interleavings and outcomes are unbounded", "anchors": ["capi/src/error.rs: blaze_err_last, set_last_err", "capi/src/symbolize.rs: blaze_symbolize_impl, blaze_symbolize_cache_elf", "capi/src/normalize.rs: blaze_normalize_user_addrs_impl", "capi/src/inspect.rs: blaze_inspect_syms_elf", "capi/src/helper.rs: blaze_read_elf_build_id, blaze_supports_procmap_query"]}
{"id": "C62", "title": "Function lookup in DWARF data", "statement": "Symbolizing an address with DWARF data finds a function if and only if some function entry of a unit declaring the address has the address in its code (provided the code of no function lies within that of another one), and the function found is one whose code contains the address; the lookup never panics.", "quantifier": "every set of units, entries, range attributes and address", "why_tests_cant": "unbounded entry streams and range lists, and the result depends on sorting and binary search", "anchors": ["src/dwarf/function.rs: Functions::parse, find_address", "src/dwarf/units.rs: find_function", "src/dwarf/unit.rs: find_function"]}
{"id": "C63", "title": "Names in DWARF data follow references", "statement": "The name of a function or inlined function is its linkage name or else the name its attributes give, directly or through references to other entries, within the same unit or the unit that contains the referenced offset; at most sixteen references are followed, so lookup terminates on cyclic data.", "quantifier": "every graph of entries and references, including cyclic ones", "why_tests_cant": "reference graphs are unbounded and may be cyclic", "anchors": ["src/dwarf/function.rs: name_entry, name_attr", "src/dwarf/units.rs: find_unit"]}
{"id": "C64", "title": "Symbolization with DWARF data", "statement": "The symbol reported for an address with DWARF data is a function of a unit that declares the address, with the name and extent of the function; if there is none, it is the symbol of the ELF symbol table. The source location is the one of the line program, and inlined functions are reported only if they are wanted. On well-formed data the search always succeeds.", "quantifier": "all DWARF data and all addresses", "why_tests_cant": "Which function, unit and row is found depends on the whole of the debug information and on every range in it.", "anchors": ["src/dwarf/resolver.rs:find_sym", "src/dwarf/resolver.rs:fill_code_info", "src/dwarf/unit.rs:language", "src/dwarf/units.rs:find_function"]}
{"id": "C65", "title": "Looking up functions by name in DWARF data", "statement": "Looking up a name with DWARF data reports only functions with this name and, for every unit with such functions, one of them, with address, size and file offset; if there are none, the result is that of the ELF symbol table. Variables are rejected.", "quantifier": "all DWARF data and all names", "why_tests_cant": "Names come from arbitrary chains of references between entries, over all units.", "anchors": ["src/dwarf/resolver.rs:find_addr", "src/dwarf/resolver.rs:function_to_sym_info", "src/dwarf/unit.rs:find_name", "src/dwarf/units.rs:find_name"]}
{"id": "C66", "title": "Debug information comes from the file it belongs to", "statement": "The debug information used for an ELF file is that of the file its debug link names if one of that name is found in the debug directories, and else its own; a debug file with another checksum than the link demands, or one that cannot be read, makes the request fail instead of being used or skipped; a package file next to the binary is used if there is one; and file offsets and modules of symbols from debug information are those of the file that was asked for.", "quantifier": "every file, every debug link, every content of the debug directories, every package file", "why_tests_cant": "which file is used depends on the link, the checksum, the search order and on what exists; tests fix one layout", "anchors": ["src/dwarf/resolver.rs:try_deref_debug_link", "src/dwarf/resolver.rs:try_find_dwp", "src/dwarf/resolver.rs:from_parser", "src/elf/resolver.rs:ElfResolver"]}
{"id": "C67", "title": "Answers of an inspector do not depend on earlier requests", "statement": "What an inspector reports for a source is what the files at the moment of the request say, whatever was looked up with it before and however the files changed between requests.", "quantifier": "every history of requests, every change of the files between them", "why_tests_cant": "histories and file system changes are unbounded and interact with the caches", "anchors": ["src/inspect/inspector.rs:lookup", "src/inspect/inspector.rs:for_each", "src/file_cache.rs:FileCache", "src/elf/resolver.rs:ElfResolverData"]}
{"id": "C68", "title": "A symbolizer's answers do not depend on what it was used for before", "statement": "Whatever sequence of symbolize, symbolize_single, cache, evict and register_elf_resolver calls a Symbolizer has seen, in whatever states of the file system and of the processes, a request is answered with the versions of the files that are in use (those on disk, except for files that were cached, or that are known while auto reloading is off) and with the current (or cached) mappings of the process, exactly like a symbolizer without any cache that opens all files anew. For Breakpad and GSYM files this holds without any condition on the history; for symbols of ELF files, perf maps and processes without debug information up to the module name that is reported; with debug information, APKs and vDSO when the history is orderly (a file is always used under one name and with the same debug files).", "quantifier": "all settings, all histories of calls in all sequences of worlds, all sources but the kernel, all inputs", "why_tests_cant": "the answer depends on the contents of seven caches, which depend on the complete history of calls and of changes to the file system", "anchors": ["src/symbolize/symbolizer.rs:Symbolizer::symbolize", "src/symbolize/symbolizer.rs:Symbolizer::symbolize_single", "src/file_cache.rs:FileCache", "src/symbolize/symbolizer.rs:Symbolizer::elf_resolver", "src/symbolize/symbolizer.rs:Symbolizer::perf_map_resolver", "src/symbolize/symbolizer.rs:Symbolizer::apk_resolver"]}
{"id": "C69", "title": "Caching pins a version, evicting releases it", "statement": "After cache(ELF path) has succeeded, the version of the file that was at the path then stays in use, whatever is at the path later and whatever else the symbolizer is used for, until the path is cached again or evicted; after cache(process) with mappings, the mappings as of then stay in use until cached again or evicted. Evicting always succeeds, makes the symbolizer use what is on disk (or read the mappings anew) for this path or process, and affects nothing else.", "quantifier": "all settings, all histories before and after the call, all later worlds", "why_tests_cant": "a pin must survive every sequence of later calls and file changes; tests try one or two", "anchors": ["src/symbolize/symbolizer.rs:Symbolizer::cache", "src/symbolize/symbolizer.rs:Symbolizer::evict", "src/file_cache.rs:FileCache::set_pin_state", "src/file_cache.rs:FileCache::evict", "src/symbolize/cache.rs:Cache", "src/symbolize/evict.rs:Evict"]}
{"id": "C70", "title": "Kernel symbolization with a symbolizer that is used for long", "statement": "Symbolizing kernel addresses gives the answer one gets if all files (kallsyms, vmlinux, the files of modules) are opened anew as they are on disk, whatever the symbolizer was used for before. Only the list of loaded modules, the index of module files and the KASLR offset may be remembered; each of them is what an earlier request for the kernel found, and stays as it is. So as long as the system stays the same, the answers are those of a new symbolizer.", "quantifier": "all kernel sources, all addresses, all settings, all histories of calls in changing worlds", "why_tests_cant": "which file was opened when, which attempt failed and what was remembered depends on the whole history; tests use a new symbolizer or repeat one request", "anchors": ["src/kernel/cache.rs:KernelCache", "src/kernel/resolver.rs:KernelResolver", "src/symbolize/symbolizer.rs:Symbolizer::create_kernel_resolver", "src/kernel/ksym.rs:KsymResolver::load_from_reader", "src/kernel/depmod.rs:DepmodIndex::with_system_default", "src/kernel/modmap.rs:ModMap"]}
{"id": "C71", "title": "Source locations of BPF programs that are loaded and unloaded", "statement": "The source location reported for an address in a BPF program is the one the line information of that program gives for it: that of the record with the greatest address not above it. Programs may be loaded and unloaded at any time, also while a request is being answered; a location that was reported once is reported again, and one that is reported belongs to a program with the tag in question that was loaded at some time. Requests that do not ask for locations, and requests for ordinary functions, do not ask the kernel about programs.", "quantifier": "all sets of loaded programs and all changes of them between any two system calls, all line information, all sequences of requests", "why_tests_cant": "which programs are loaded when each system call is made is up to the rest of the system; tests load one program and ask once", "anchors": ["src/kernel/bpf/prog.rs:BpfInfoCache::lookup", "src/kernel/bpf/prog.rs:query_line_info", "src/kernel/bpf/prog.rs:BpfProg::retrieve_code_info", "src/kernel/bpf/btf.rs:Btf::load_from_id", "src/kernel/bpf/sys.rs:bpf_prog_get_next_id", "src/kernel/ksym.rs:KsymResolver::find_sym"]}
{"id": "C72", "title": "What is reported for an address, from the contents of the files", "statement": "Symbolizing an address of a process finds the mapping the address lies in and the place in the file it is mapped from. If the file is an ELF file, what is reported is the symbol of its symbol table (or else of its dynamic symbols) that covers the virtual address of this place and starts closest to it, with the file as module; a place that no segment has, or an address no symbol covers, is reported as unknown with the reason. The same goes for an offset of an ELF file that is given directly, for a member of an archive, for the vDSO in memory, and, with debug information, for the functions it has, along with the source locations of its line programs and the functions inlined there, as far as these are enabled. Memory that is not mapped from a file is looked up in the process' perf map. Files whose symbols have names and lie within the address space always have an answer.", "quantifier": "all processes, listings of mappings, files, archives, perf maps and addresses; all earlier uses of the symbolizer", "why_tests_cant": "it is a statement about the composition of half a dozen parsers and lookups, for files and layouts of any size; tests look up a few known functions in a few sample files", "anchors": ["src/symbolize/symbolizer.rs:Symbolizer::symbolize_single", "src/symbolize/symbolizer.rs:SymbolizeHandler", "src/elf/resolver.rs:ElfResolver::find_sym", "src/elf/parser.rs:ElfParser::find_sym", "src/elf/parser.rs:ElfParser::file_offset_to_virt_offset", "src/vdso.rs:create_vdso_parser", "src/symbolize/perf_map.rs:PerfMap", "src/apk/resolver.rs"]}
{"id": "C73", "title": "What is reported for a kernel address, from the contents of the files", "statement": "Symbolizing a kernel address uses the kallsyms file and the kernel image that are asked for, or else /proc/kallsyms and the first image that exists in the usual places for the running release, as far as they can be read. With a kernel image, an address inside a loaded module is looked up, relative to the start of the module, in the file that the modules index of the running release lists for the module (decompressed if need be), and in nothing else; any other address is looked up, less the KASLR offset, in the image: a symbol with a size is the answer, one without gives way to what kallsyms says, and without one kallsyms is the answer. The KASLR offset is the one given, or the one in /proc/kcore, or without permission for it the difference of where kallsyms and the image say that the kernel starts. In the image and in module files, functions of debug information come before symbols, if debug information is to be used. Kallsyms reports the symbol with the greatest address not above the one asked for.", "quantifier": "all kallsyms files, kernel images, lists of modules that are apart, indexes, module files, kernel core files and addresses; all earlier uses of the symbolizer", "why_tests_cant": "it composes the selection of files, offset detection, module dispatch and three lookups, for systems of any contents; tests run on the one kernel of the build machine", "anchors": ["src/kernel/resolver.rs:KernelResolver::new", "src/kernel/resolver.rs:KernelResolver::find_sym", "src/kernel/cache.rs:KernelCache", "src/kernel/kaslr.rs:find_kaslr_offset", "src/kernel/ksym.rs:KsymResolver", "src/kernel/depmod.rs:DepmodIndex", "src/kernel/modmap.rs:ModMap"]}
{"id": "C74", "title": "Normalization results handed to C programs: contents, ownership and release", "statement": "A C program that normalizes addresses gets exactly what the Rust library reports: every output with its index, and every piece of metadata in order with its path, build ID, symbol name, address and reason. The result owns its memory: it consists of new blocks, and memory that was allocated before does not change. Releasing the result releases exactly these blocks, each once and with the layout it was allocated with, reads nothing that was released already, and leaves all other memory alone; nothing leaks. Releasing NULL does nothing. Apart from lack of memory, handing a result over cannot fail.", "quantifier": "all results of any number of outputs and metadata, all paths, names and build IDs, all allocators and all states of the heap", "why_tests_cant": "ownership is split over raw pointers in nested unions, with lengths that are recomputed when memory is released; a wrong length or a forgotten part is undefined behaviour or a leak, which a test with one allocator does not notice", "anchors": ["capi/src/normalize.rs:blaze_normalized_user_output::from", "capi/src/normalize.rs:blaze_user_meta::from", "capi/src/normalize.rs:blaze_user_meta::free", "capi/src/normalize.rs:blaze_user_output_free"]}
{"id": "C75", "title": "A normalizer answers from what is there now, whatever it was used for before", "statement": "A normalizer can be used for any number of calls about any processes while files are replaced and processes come and go. Each call gives the answer a new normalizer would give: build IDs and archive members come from the files that are now at the paths, and keeping build IDs makes no difference to any answer. Only if it was told to keep the mappings of processes, it answers later calls about a process with the mappings read by the first one that could read them, and everything else as it is now. If the mappings cannot be read, that is the answer and the next call tries again. Build IDs that cannot be read are left out and do not make the call fail.", "quantifier": "all histories of calls with all options, all contents of files at the time of each call, all processes and addresses, and all settings of the builder", "why_tests_cant": "three caches keyed by different things (path, file version, process) are filled lazily and in part, also by calls that fail; tests call a normalizer once or twice with unchanged files", "anchors": ["src/normalize/normalizer.rs:Normalizer", "src/normalize/normalizer.rs:Builder::build", "src/normalize/normalizer.rs:Normalizer::normalize_user_addrs_opts", "src/normalize/user.rs:NormalizationHandler", "src/normalize/buildid.rs:read_elf_build_id", "src/normalize/user.rs:UserOutput"]}
{"id": "C76", "title": "Normalizing now and symbolizing later gives the symbols that symbolizing now gives", "statement": "An address of a process that is normalized, and whose output (a file and an offset in it, an archive and an offset in it, or a symbol of the vDSO) is symbolized later as documented, gets the symbol that symbolizing the address itself in the process gets: the same name, address, offset, size and source location, and the same module, unless files are read through the links in /proc, when only the name of the module differs. Where one of the ways finds no symbol, the other finds none either. If members of archives are reported in place of archives, a file with the contents of the member gives the same symbol, and the build ID that is reported is the one of that file. This holds whatever the normalizer and the symbolizers were used for before.", "quantifier": "all processes, mappings, files, archives and addresses, all histories of the normalizer and of both symbolizers", "why_tests_cant": "the two ways go through different code (normalization handlers, symbolization handlers, archive translation, vDSO lookups); tests compare them for one or two addresses of the test process", "anchors": ["src/normalize/user.rs:NormalizationHandler", "src/normalize/normalizer.rs:Normalizer::normalize_user_addrs_opts", "src/symbolize/symbolizer.rs:Symbolizer::symbolize_single", "src/symbolize/symbolizer.rs:SymbolizeHandler", "src/normalize/meta.rs:UserMeta", "src/symbolize/source.rs:Source"]}
{"id": "C77", "title": "What the command line tool prints can be read back and is what the library answers", "statement": "Addresses and process numbers on the command line are taken as written, and others are refused; an address that the tool printed can be given back to it. blazecli symbolize prints, for every address in the order given, either that there is no symbol or the name, start and offset of the symbol with its source location and inlined functions, exactly as a symbolizer with default settings and the given source and debug directories answers; blazecli normalize prints for every address the file, offset and build ID that a normalizer answers; blazecli inspect prints the symbols that an inspector finds or visits, sorted by address and aligned, or the build ID of a file. The output is unambiguous: whoever knows the format gets back exactly these answers from the text. If the library fails, the tool fails with its error and prints nothing.", "quantifier": "all commands and options, all numbers of addresses and names, all processes, files and answers whose names and paths have no line breaks and do not contain the separators", "why_tests_cant": "round trips through text have to be injective for all names, numbers and combinations of optional parts; tests compare a few lines of output", "anchors": ["cli/src/main.rs:symbolize", "cli/src/main.rs:print_frame", "cli/src/main.rs:normalize", "cli/src/main.rs:inspect", "cli/src/main.rs:print_sym_infos", "cli/src/main.rs:format_build_id_bytes", "cli/src/args.rs:parse_addr", "cli/src/args.rs:parse_pid"]}
{"id": "C78", "title": "Traces: every line reaches the callback once, and the tool's trace lines are complete or cut, never mixed up", "statement": "A C program that asks for traces gets, through its callback, every complete line of every event of the levels it asked for, once and in order, as a string that ends at the line's newline (or at a NUL inside of it), however the text is divided into writes; before it asks it gets nothing, and asking again is refused and changes nothing. The command line tool writes, for everything that happens at the levels asked for by -v, exactly one line of at most 256 bytes with the time, the level, the spans around it and the fields, in order.", "quantifier": "all divisions of all texts into writes, all sequences of requests and events, all levels, spans, fields and lengths", "why_tests_cant": "the writer is called with arbitrary fragments; a wrong step shows only for divisions in which a newline falls on a certain place of a fragment", "anchors": ["capi/src/trace.rs:LineWriter::write", "capi/src/trace.rs:blaze_trace", "capi/src/trace.rs:blaze_trace_lvl", "cli/src/trace.rs:Hierarchical::write_args", "cli/src/trace.rs:Hierarchical::write_impl", "cli/src/trace.rs:Hierarchical::write_names", "cli/src/trace.rs:Visitor::record_value", "cli/src/main.rs:main"]}
{"id": "C79", "title": "Names are shown demangled by the scheme of the language they are written in", "statement": "If demangling is enabled (it is by default), the name of a symbol that is reported, and those of the functions inlined at the address, are what the demangler for the language of the symbol makes of the name in the file: the language that the debug information states for the compilation unit of the function, where debug information is used, and otherwise either language, Rust being tried before C++. A name the demangler does not recognise is reported as it is in the file, and so is every name if demangling is disabled. Nothing else in the answer depends on demangling.", "quantifier": "all names, all demanglers, all languages and their numbers in debug information, all units with and without a stated language, all sources", "why_tests_cant": "the language is found on two different paths depending on whether the unit was already looked at, and goes through three conversions; names that are recognised by both schemes are rare in tests", "anchors": ["src/symbolize/symbolizer.rs:maybe_demangle_impl", "src/symbolize/symbolizer.rs:maybe_demangle", "src/symbolize/symbolizer.rs:symbolize_with_resolver", "src/dwarf/resolver.rs:From<Option<gimli::DwLang>> for SrcLang", "src/dwarf/unit.rs:language", "src/dwarf/units.rs:parse"]}
{"id": "C80", "title": "The error for a malformed Breakpad file says what is wrong and where", "statement": "If a Breakpad symbol file is refused, the error says why: that it has no complete line, exactly if there is no newline in it; that more data is expected, exactly if the file would be fine without its last, unterminated line; that a MODULE record is not at the start, only if there is one after other records; or else, for the first record that cannot be read, the number of its line in the file, the text of that line and, by a caret, the column at which reading it stopped.", "quantifier": "all texts", "why_tests_cant": "where a parser gives up depends on which alternatives it tried before, for every possible text; tests compare the messages of a few broken files of one line", "anchors": ["src/breakpad/parser.rs:stringify_error", "src/breakpad/parser.rs:convert_nom_err_to_error", "src/breakpad/parser.rs:SymbolParser::parse", "src/breakpad/file.rs:SymbolFile::parse"]}
{"id": "C81", "title": "What the command line tool prints for addresses follows from the contents of files", "statement": "blazecli symbolize prints, for every address in the order given, what the contents of the files on disk say about it: for an ELF file the symbol that stands for the address, or with debug information the function, source location and inlined functions there; for a process the same for the place of the file that the address is mapped from, and that there is no symbol if it is not mapped; for the kernel what the list of symbols, the kernel image and the modules say; for Breakpad and GSYM files what they have for the address (C82). Names are shown demangled. If a file cannot be read or is not an ELF file, the tool fails with that error and prints nothing.", "quantifier": "all files, processes, debug directories, options and lists of addresses; names without line breaks and separators; files that are used under one name", "why_tests_cant": "it goes through the whole library, from argument parsing over caches and parsers to the text printed; tests look at a few addresses of a few binaries", "anchors": ["cli/src/main.rs:symbolize", "cli/src/main.rs:print_frame", "src/symbolize/symbolizer.rs:Symbolizer::symbolize", "src/elf/resolver.rs:ElfResolver::find_sym", "src/kernel/resolver.rs:KernelResolver::find_sym", "src/normalize/user.rs:normalize_user_addrs_with_entries"]}
{"id": "C82", "title": "What is reported for addresses of Breakpad and GSYM files follows from their contents", "statement": "For every offset of a Breakpad symbol file, the function reported is the one of the file's records that the offset is in, with the module's name, and the source line and the inlined calls reported are those the records have for the offset, locations moving outwards by one call; if no record covers the offset it is reported as unknown. For every address of a GSYM file, or of GSYM data in memory, the entry reported is the one with the greatest start not above the address, and its location and inlined functions are those of the first line table and the first inline information of the entry that have any for the address. Files that are not of the format are refused. Unless files or functions that are referred to have no name, there is an answer.", "quantifier": "all files, all settings of the symbolizer, all addresses; not functions and lines that reach the end of the address space, and not damaged entries of GSYM files", "why_tests_cant": "it goes from the bytes of the file, through a parser, a lookup, a line table and a tree of calls to the reported symbol; tests compare a few addresses of a few generated files", "anchors": ["src/breakpad/resolver.rs:BreakpadResolver::find_sym", "src/breakpad/types.rs:Function::find_line", "src/breakpad/parser.rs:SymbolFile::from_bytes", "src/gsym/resolver.rs:GsymResolver::find_sym", "src/gsym/parser.rs:GsymContext::parse_header", "src/symbolize/symbolizer.rs:Symbolizer::symbolize_impl"]}
{"id": "C83", "title": "What is reported for names follows from the contents of files", "statement": "Looking up names in an ELF file, with or without its debug information, or in a Breakpad file succeeds if the file is not damaged, and yields one answer for each name, in order. Without debug information the answer is all symbols of the static table with this name that the file defines, each once, with their names, addresses, sizes, kinds and places in the file, or, if there is none, those of the dynamic table at addresses no static symbol stands for. With debug information it is the first function with the name of every unit, or, if no unit has one, the symbols. For a Breakpad file it is the FUNC records with the name in the order of addresses. Visiting all symbols hands over each of them once until the callback asks to stop. All of this holds whatever the inspector was used for before. The command line tool prints these symbols, those of each name in the order of their addresses.", "quantifier": "all files that are not malformed, all lists of names, all callbacks, all earlier uses of the inspector", "why_tests_cant": "it goes from the bytes of a file through parsers, caches and several kinds of lookups to what is reported or printed; tests look up single names in a few generated files with new inspectors", "anchors": ["src/inspect/inspector.rs:Inspector::lookup", "src/inspect/inspector.rs:Inspector::for_each", "src/elf/parser.rs:ElfParser::find_addr", "src/elf/parser.rs:ElfParser::for_each", "src/dwarf/resolver.rs:DwarfResolver::find_addr", "src/elf/resolver.rs:ElfResolver::find_addr", "src/breakpad/resolver.rs:BreakpadResolver::find_addr", "cli/src/main.rs:inspect"]}
{"id": "C84", "title": "Go programs are told what the library reports", "statement": "Every function of the Go package that symbolizes asks the library for the file, data or process given with the options given (the last value of an option counts; by default neither debug symbols nor perf maps are used), and returns one value per result, in order, with the same name, module, address, offset, size, source location, inlined functions and reason; nil if there are no results; and an error with the text of the kind of the library's error if it fails. A new symbolizer uses the settings given, or else the defaults. The functions touch no memory that is not allocated.", "quantifier": "all files, data, processes, options, lists of addresses, results and errors of the library, all allocators", "why_tests_cant": "results travel through buffers, pointers and counts that Go code walks without checks; tests compare a few fields of a few results", "anchors": ["go/symbolizer.go:processSyms", "go/symbolizer.go:SymbolizeElfVirtOffsets", "go/symbolizer.go:SymbolizeProcessAbsAddrs", "go/symbolizer.go:SymbolizeGsymDataVirtOffsets", "go/symbolizer.go:SymbolizeGsymFileVirtOffsets", "go/symbolizer.go:NewSymbolizer", "go/symbolizer_option.go:SymbolizerWithDebugDirs", "go/source_elf.go:ElfSourceWithDebugSyms", "go/source_process.go:ProcessSourceWithPerfMap", "go/error.go:Error", "go/reason.go:SymbolizeReason"]}
{"id": "C85", "title": "What a goroutine is told does not depend on other goroutines", "statement": "What a function of the Go package returns is about its own call: it reports the error of this call if it failed and none if it did not, whatever other goroutines do at the same time and on whichever threads the Go runtime runs them.", "quantifier": "all schedules: the thread of the call, the thread on which the error is asked for, all calls of other goroutines before and in between", "why_tests_cant": "the library keeps errors per thread, while the runtime may move a goroutine between two calls into C; that is rare and not under the control of tests", "anchors": ["go/symbolizer.go:processSyms", "go/symbolizer.go:NewSymbolizer", "capi/src/error.rs:blaze_err_last", "capi/src/error.rs:set_last_err"]}
{"id": "C86", "title": "The Go package frees exactly the C memory that it allocates", "statement": "When a function of the Go package returns, all memory it allocated in C (strings, arrays of strings, the results of the library) is free again, each block having been freed once, and other memory is as before.", "quantifier": "all arguments, options, results, allocators and schedules", "why_tests_cant": "a leak or a double free has no effect on results; it depends on the order of options, and on errors", "anchors": ["go/symbolizer.go:NewSymbolizer", "go/symbolizer.go:processSyms", "go/symbolizer_option.go:makeCArrayOfStrings", "go/symbolizer_option.go:freeCArrayOfStrings", "go/symbolizer_option.go:SymbolizerWithDebugDirs", "go/source_elf.go:cleanupElfSourceStruct", "go/source_gsym_file.go:cleanupGsymFileSourceStruct", "capi/src/symbolize.rs:blaze_syms_free"]}
{"id": "C87", "title": "A C program can use any number of symbolizers, in any order of calls, and gets from each what the library has to say, in memory that stays intact until it is freed", "statement": "In a C program that frees only what it was given, each call on a symbolizer answers as the Rust library would for the history of this symbolizer alone: whatever other symbolizers were used for does not matter. A call that succeeds returns a pointer to the answers, in the order of the addresses; they stay as they are, whatever is called or freed meanwhile, until they are freed. An error is reported by the code for its kind, for the calling thread only. Symbolizers and results can be freed in any order, without undefined behaviour, and when all are freed only the program's own memory is in use. For ELF files and processes without debug information, the answers are the symbols of the files.", "quantifier": "all sequences of calls by all threads, with any changes of the world and of the program's own memory in between, all allocators, all contents of files", "why_tests_cant": "tests use one symbolizer and free the results at once; an answer that depends on another symbolizer, a block freed twice or a result overwritten later shows only in longer histories", "anchors": ["capi/src/symbolize.rs:blaze_symbolizer_new", "capi/src/symbolize.rs:blaze_symbolizer_new_opts", "capi/src/symbolize.rs:blaze_symbolizer_free", "capi/src/symbolize.rs:blaze_symbolize_impl", "capi/src/symbolize.rs:blaze_syms_free", "capi/src/symbolize.rs:blaze_symbolize_cache_elf", "capi/src/symbolize.rs:blaze_symbolize_cache_process", "capi/src/error.rs:set_last_err"]}
{"id": "C88", "title": "A C program can name another ELF file for a mapped file of a process, and addresses there are symbolized with that file", "statement": "A symbolizer that was created with a dispatch callback calls it for mappings that have a path, with the /proc/<pid>/map_files path and the symbolic path as strings. If it returns NULL, addresses of the mapping are reported as by a symbolizer without a callback. If it returns a string, they are looked up in the ELF file with this path, at the offset they are mapped from, and reported under this path, using the debug directories of the symbolizer; if the file cannot be opened, that is an error. The string that was returned is freed exactly once, and so is everything the library allocated for the call, also in case of an error. Mappings without a path, and paths that cannot be C strings, never reach the callback.", "quantifier": "all callbacks that return NULL or a string from malloc, whatever else they do to the program's own memory; all paths, memory contents, allocators, processes and addresses; all contents of the files", "why_tests_cant": "tests have one callback that names one existing file; a leak, a double free, a string freed before it is used or an error path that skips the free is not seen by them, nor are callbacks that allocate or free memory of their own", "anchors": ["capi/src/symbolize.rs:blaze_symbolizer_dispatch", "capi/src/symbolize.rs:blaze_symbolizer_new_opts", "src/elf/resolver.rs:open_with_debug_dirs", "src/symbolize/symbolizer.rs:set_process_dispatcher"]}
{"id": "C89", "title": "A Go program may create, use and close any number of symbolizers in any order, and is told the same as a Rust program", "statement": "Whatever a Go program has done with the package: each symbolizer it has not closed is in a state that a Rust program can bring it to with the same requests. A goroutine that is locked to its thread is told what such a symbolizer reports: the text of its error, nil, or the results with the same contents; for an ELF file or a process these are the symbols of the files. The request changes no other symbolizer and no memory that was in use. NewSymbolizer returns a symbolizer with the settings asked for, whose address no other open one has. Close frees its memory and nothing else; if all are closed and nothing was lost as described in C86, only the program's own memory is in use.", "quantifier": "all histories of creating, using and closing symbolizers, by any goroutines on any threads; all options, requests, worlds and allocators; all use of the program's own memory in between", "why_tests_cant": "tests create one symbolizer, ask once and close it; what a second symbolizer, a closed one or a long history does is never tried, and undefined behaviour after Close need not show", "anchors": ["go/symbolizer.go:NewSymbolizer", "go/symbolizer.go:Close", "go/symbolizer.go:processSyms", "capi/src/symbolize.rs:blaze_symbolizer_free"]}
{"id": "C90", "title": "A C program can use any number of normalizers, in any order of calls, and gets from each what the library has to say, in memory that stays intact until it is freed", "statement": "In a C program that frees only what it was given, each call on a normalizer answers as the Rust library would for the history of this normalizer alone. A call that succeeds returns a pointer to the result, with one output for each address, in order, that refers to the metadata of its file; it stays as it is, whatever is called or freed meanwhile, until it is freed. An error is reported by the code for its kind, for the calling thread only, and nothing is allocated. Normalizers and results can be freed in any order, without undefined behaviour, and when all are freed only the program's own memory is in use. For each address of a process the result says the file it is mapped from with the offset in it and the build ID, or why that is not known.", "quantifier": "all sequences of calls by all threads, with any changes of the world and of the program's own memory in between, all allocators, all processes and contents of files", "why_tests_cant": "tests use one normalizer and free the result at once; an answer that depends on another normalizer, a block freed twice or a result overwritten later shows only in longer histories", "anchors": ["capi/src/normalize.rs:blaze_normalizer_new", "capi/src/normalize.rs:blaze_normalizer_new_opts", "capi/src/normalize.rs:blaze_normalizer_free", "capi/src/normalize.rs:blaze_normalize_user_addrs_impl", "capi/src/normalize.rs:blaze_user_output_free", "capi/src/error.rs:set_last_err"]}
{"id": "C91", "title": "A C program can use any number of inspectors, in any order of calls, and gets from each the symbols that are in the file, in memory that stays intact until it is freed", "statement": "In a C program that frees only what it was given, each call on an inspector answers as the Rust library would for the history of this inspector alone. A call that succeeds returns a pointer to one array of symbols for each name, in order, each ending with zeros; it stays as it is, whatever is called or freed meanwhile, until it is freed. An error, also the lack of memory for the result, is reported by the code for its kind, for the calling thread only, and nothing is allocated. Inspectors and results can be freed in any order, without undefined behaviour, and when all are freed only the program's own memory is in use. The symbols are those of the file that is at the path at the time of the call, and of its debug information if asked for.", "quantifier": "all sequences of calls by all threads, with any changes of the world and of the program's own memory in between, all allocators, all files and names", "why_tests_cant": "tests use one inspector and free the result at once; an answer that depends on another inspector, a block freed twice or a result overwritten later shows only in longer histories", "anchors": ["capi/src/inspect.rs:blaze_inspector_new", "capi/src/inspect.rs:blaze_inspector_free", "capi/src/inspect.rs:blaze_inspect_syms_elf", "capi/src/inspect.rs:blaze_inspect_syms_free", "capi/src/inspect.rs:convert_syms_list_to_c", "capi/src/error.rs:set_last_err"]}
{"id": "C92", "title": "What an open ELF file answers does not depend on what it was asked before", "statement": "An open ELF file whose contents do not change answers every question (the symbol at an address, the addresses of a name, file and virtual offsets, sections and their contents, relocations, headers) from its contents alone: the same as a file that was just opened, whatever it was asked before, in whatever order, and whether that succeeded or not. Visiting all symbols gives all of them, also if the callback asks the same file things in between. An error is not kept in place of an answer, and an answer is never that for another section, table or question.", "quantifier": "all contents of files, in memory or on disk, all histories of questions, all callbacks and what they ask", "why_tests_cant": "tests ask a new file one question; a part kept from one question and used for another one, or one left incomplete by a failure, shows only after particular histories", "anchors": ["src/elf/parser.rs:Cache", "src/elf/parser.rs:ElfParser", "src/elf/parser.rs:SymbolTableCache", "src/util.rs:OnceCellExt", "src/elf/parser.rs:ensure_str2dynsym", "src/elf/parser.rs:section_data", "src/elf/parser.rs:for_each", "src/elf/parser.rs:cache"]}
{"id": "C93", "title": "What the debug information of a file answers does not depend on what it was asked before", "statement": "Opened debug information answers every question (function, source location and inlined calls at an address, the addresses of a name) from the contents of the file alone: the same as if it had just been opened, whatever was asked before, in whatever order, and whether that succeeded or not. Visiting all functions gives all of them, also if the callback asks things in between. What is kept of one unit or function is never used for another one, and units that refer to each other do not cause a part to be decoded while it is being decoded.", "quantifier": "all debug information, all references between its units, all histories of questions, all callbacks and what they ask", "why_tests_cant": "tests look up a few addresses of one file; a part kept for the wrong unit or function, or a cycle of references that decodes a unit again, shows only with particular files and histories", "anchors": ["src/dwarf/unit.rs:Unit", "src/dwarf/unit.rs:ensure_dw_unit", "src/dwarf/unit.rs:unit_ref", "src/dwarf/unit.rs:parse_lines", "src/dwarf/unit.rs:parse_functions_dwarf_and_unit", "src/dwarf/unit.rs:language", "src/dwarf/function.rs:parse_inlined_functions", "src/dwarf/units.rs:find_function", "src/dwarf/resolver.rs:find_sym"]}
{"id": "C94", "title": "Programs built against the C header find the members of structures where the library puts them", "statement": "Every structure and union of the C API has, in the header, the members the library has, in the same order and with the same sizes, alignments, offsets and overall size, on every target. Members are aligned and do not overlap, also in arrays and in the buffers results are returned in. Adding members at the end of a structure moves none of the others: a library sees the members it has in common with a program built for another version as the program set them, and members the program's structure does not have as zeros. Input structures have no padding, so a program that sets all members never fails the check of reserved bytes.", "quantifier": "all structures of the C API, all targets (word sizes and alignments of integers), all versions of a structure that begin with common members, all contents of memory, all lengths of results", "why_tests_cant": "tests run on one target with one version of the header; a member that moved on another target, an array that is not aligned there, or a program built against another version is not something a test can enumerate", "anchors": ["capi/include/blazesym.h", "capi/src/lib.rs:input_sanitize", "capi/src/lib.rs:input_zeroed", "capi/src/symbolize.rs:blaze_sym", "capi/src/symbolize.rs:blaze_syms", "capi/src/symbolize.rs:convert_symbolizedresults_to_c", "capi/src/inspect.rs:blaze_sym_info", "capi/src/inspect.rs:convert_syms_list_to_c", "capi/src/normalize.rs:blaze_user_meta", "capi/src/normalize.rs:blaze_normalized_user_output"]}
{"id": "C95", "title": "Symbolizers, normalizers and inspectors of one program do not get in each other's way", "statement": "In a program that uses all of the C API, each symbolizer, normalizer and inspector behaves as if the program had objects of its kind only, whatever is done with the others in between: calls for one kind leave the objects, results and last errors of other threads, and the memory of the program, alone. All results that were handed out, of any kind, stay valid and what they were until they are freed. The memory in use is exactly that of the objects and results that were not freed and the program's own, and when everything has been freed, in whatever order, none is left.", "quantifier": "all programs: all sequences of calls for objects of all kinds by all threads in all worlds, with anything the program does with its own memory in between, all allocators, all orders of freeing", "why_tests_cant": "tests use one kind of object at a time, and few calls; interference through shared memory or the shared last error shows only for particular interleavings of calls", "anchors": ["capi/src/symbolize.rs:blaze_symbolizer_new", "capi/src/symbolize.rs:blaze_syms_free", "capi/src/normalize.rs:blaze_normalizer_new", "capi/src/normalize.rs:blaze_user_output_free", "capi/src/inspect.rs:blaze_inspector_new", "capi/src/inspect.rs:blaze_inspect_syms_free", "capi/src/error.rs:LAST_ERR"]}
{"id": "C96", "title": "What the C API reports about an address can be symbolized later with the same result", "statement": "A C program that normalizes addresses of a process is given, for each of them, a file and an offset in it, a symbol, or a reason. If it, or another program, hands those offsets to the function for offsets in ELF files later, with a symbolizer with the same options that may have been used for anything before, it is given the symbols (name, address, size, offset, source location, inlined functions) that a program is given that asks for the addresses of the process themselves; several offsets of a file can be asked for at once. If a symbol was reported, that is this symbol, and if a reason, there is none. This holds as long as the files do not change.", "quantifier": "all programs and all that they did before with symbolizers, normalizers and inspectors, all processes, address lists and files, all groupings of the outputs by file, all allocators", "why_tests_cant": "a test goes through a few addresses of one process with new objects; agreement of two code paths with the caches of two kinds of objects in between is a claim about all processes and histories", "anchors": ["capi/src/normalize.rs:blaze_normalize_user_addrs_opts", "capi/src/normalize.rs:blaze_normalized_user_output", "capi/src/symbolize.rs:blaze_symbolize_elf_file_offsets", "capi/src/symbolize.rs:blaze_symbolize_process_abs_addrs", "src/normalize/user.rs:normalize_sorted_user_addrs_with_entries", "src/symbolize/symbolizer.rs:symbolize_user_addrs"]}
{"id": "C97", "title": "Open GSYM, Breakpad and kallsyms files answer the same whatever they were asked before", "statement": "A GSYM, Breakpad or kallsyms file that is kept open answers every request for an address or a name as if it had just been opened, after any requests that succeeded or failed. In particular the inlined functions that were found for one address, possibly before an error, are never reported for another, and lookups by name find the same symbols whether or not the file was asked for a name before. A callback that visits all symbols of a Breakpad or kallsyms file may itself ask the file for addresses and names: it is given all symbols up to the one after which it wants no more, and the answers to what it asks.", "quantifier": "all contents of files, all sequences of requests with all addresses, names and options, all callbacks and all that they ask for", "why_tests_cant": "tests ask a new resolver for one thing; left over contents of a buffer show only for particular orders of requests to particular files, such as a request that fails between two that succeed", "anchors": ["src/gsym/resolver.rs:GsymResolver", "src/gsym/resolver.rs:fill_code_info", "src/gsym/inline.rs:parse_into_stack", "src/breakpad/types.rs:SymbolFile::find_addr", "src/breakpad/resolver.rs:BreakpadResolver", "src/kernel/ksym.rs:KsymResolver"]}
{"id": "C98", "title": "Names lead to addresses and addresses lead back to names", "statement": "Whoever looks up a symbol by name and then symbolizes one of the reported addresses gets a symbol that starts at this address (of an ELF file one that is at least as large, of a Breakpad file one that is at most as large). Whoever symbolizes an address and then looks up the name that was reported gets the symbol that was reported among the answers.", "quantifier": "all ELF, Breakpad and kallsyms symbol data, all names and addresses, all orders in which an unstable sort may leave equal elements", "why_tests_cant": "tests look up a few well-known symbols of one binary; agreement of two different indexes over the same symbols, with aliases, zero sizes and two symbol tables, is a claim about all symbol tables", "anchors": ["src/elf/parser.rs:find_addr", "src/elf/parser.rs:find_sym", "src/breakpad/types.rs:SymbolFile::find_addr", "src/breakpad/resolver.rs:find_sym", "src/kernel/ksym.rs:find_addr", "src/kernel/ksym.rs:find_ksym"]}
{"id": "C99", "title": "Listing all symbols of a file and looking up names give the same symbols", "statement": "What an inspector finds for a name in a file is what visiting all symbols of the file yields for this name: the same symbols, each as often. Nothing is found that is not listed, and nothing that is listed under a name is missed when the name is looked up, whatever the inspectors were used for before. The same is true of the symbols of an ELF file, the functions of a Breakpad file and kernel symbols on their own.", "quantifier": "all ELF, Breakpad and kallsyms symbol data, all names, all orders in which an unstable sort may leave equal elements, all histories of the inspectors", "why_tests_cant": "tests look for one known symbol in a listing; that two code paths with different filters agree for every name in every pair of symbol tables, with duplicates, cannot be enumerated", "anchors": ["src/inspect/inspector.rs:lookup", "src/inspect/inspector.rs:for_each", "src/elf/parser.rs:find_addr", "src/elf/parser.rs:for_each", "src/breakpad/resolver.rs:for_each", "src/kernel/ksym.rs:for_each"]}
{"id": "C100", "title": "A place in an ELF file has the same symbol however it is given", "statement": "What is reported for an offset in an ELF file is what is reported for the virtual address that this offset is loaded at: the same symbol, source location and inlined functions, or the same error, with and without debug information, for one place and for many. What is reported for an address of a process that is mapped from the file is the same as well, and so is, but for the name of the module, what is reported for an offset in an archive that has the file as a member. It makes no difference which of two symbolizers is asked and what they were used for before.", "quantifier": "all ELF files with segments that fit in the address space, all offsets that are loaded, all processes and mappings of the file, all orderly histories of two symbolizers", "why_tests_cant": "tests compare the kinds of input for a few addresses of a few binaries; the translations differ by file and mapping, and there are too many of them", "anchors": ["src/symbolize/symbolizer.rs:symbolize_impl", "src/elf/parser.rs:file_offset_to_virt_offset", "src/elf/resolver.rs:file_offset_to_virt_offset", "src/symbolize/symbolizer.rs:handle_entry_addr"]}
{"id": "C101", "title": "A reported symbol contains the address it is reported for", "statement": "Every symbol that is reported for an address ends behind this address, unless its size is not known: the reported offset is less than the reported size. This holds for ELF files, Breakpad files, GSYM data, members of archives, and everything a process can have mapped, for one address and for many, with and without debug information, and for symbolizers that were used before. For addresses that need no translation, the address of the symbol and the offset add up to the address.", "quantifier": "all contents of files and memory, all mappings of processes, all addresses and batches, all orderly histories of a symbolizer, all dispatchers whose resolvers are honest", "why_tests_cant": "tests look at symbols of a few compiled binaries; overlapping, nested and truncated symbols in unusual files are too many to enumerate", "anchors": ["src/symbolize/symbolizer.rs:convert_sym", "src/symbolize/symbolizer.rs:symbolize_impl", "src/elf/parser.rs:find_sym", "src/breakpad/resolver.rs:find_sym", "src/gsym/resolver.rs:find_sym", "src/perf_map.rs:find_sym", "src/dwarf/resolver.rs:find_sym"]}
{"id": "C102", "title": "A setting of a symbolizer only changes what it is about", "statement": "Whether names are demangled, and by what, changes nothing but names: the same requests fail with the same error, and every address gets the same symbol, extent, module, source location and locations of inlined functions, or none for the same reason. Whether source locations and inlined functions are asked for changes nothing else: an address gets the same symbol, extent, module and name, or none for the same reason, as far as neither request fails because the information about the source is damaged. Both hold for all sources, for one address and for many. The options of a process source for the vDSO, for files and for generated code only matter for addresses in the vDSO, in files and in generated code.", "quantifier": "all settings, all sources and all contents of what they are read from, all mappings of processes, all addresses and batches, all dispatchers, all orderly histories of two symbolizers", "why_tests_cant": "tests compare one setting with another for a few addresses of a few binaries; that no file and no address makes an option leak into something else is a claim about all pairs of runs", "anchors": ["src/symbolize/symbolizer.rs:Builder", "src/symbolize/symbolizer.rs:symbolize_with_resolver", "src/symbolize/symbolizer.rs:maybe_demangle", "src/symbolize/symbolizer.rs:symbolize_impl", "src/breakpad/resolver.rs:fill_code_info", "src/gsym/resolver.rs:fill_code_info", "src/dwarf/resolver.rs:fill_code_info"]}
