# Formal model of blazesym in Lean 4: design

## Trusted base

* Lean 4.33.0's kernel. `lake build` elaborates every module, and the checker replays every declaration
  through the kernel.
* Axioms: at most `propext`, `Classical.choice` and `Quot.sound`, Lean's standard ones; which theorem
  depends on which is listed at the end of this file. No axiom is added. There is no `sorry` or `admit`,
  no `native_decide` or `bv_decide`, no `implemented_by`, `extern` or `unsafe`. Examples and witnesses use
  `decide` (also with the `+kernel` option: evaluation by the kernel).
* The translation by hand from Rust to Lean. It is a reading of the source, not an extraction. Each
  definition cites the file and the lines it models and states its simplifications.
* The specifications (`*Spec.lean`), which say what the English properties mean.

## Modelling conventions

* Machine integers (`u64`, `usize`, `Addr`, ...) are `Nat`. Where Rust arithmetic can overflow in a way
  that matters, the model uses checked operations whose failure is the outcome `Err.panic` (the behaviour
  of a build with overflow checks and debug assertions); `wrapping_*` is modelled modulo 2^64. The target
  is 64 bit and little-endian.
* `Result<T>` is `Except Err T`. A Rust panic (`unwrap` on `None`, index out of range, arithmetic overflow,
  a failed assertion) is the error `Err.panic`, so that "never panics" is a statement about the model.
  Error values keep their kind; texts and context layers are modelled in `Error/` only.
* `&mut` parameters and interior mutability become returned state. Loops become structural or well-founded
  recursion (so all modelled code terminates). Iterators become lists. Laziness is modelled where it can be
  observed (`Cache/InsertMap`, `Cache/ElfCache`, `Session/`).
* Unstable sorts of the standard library are an arbitrary sorting function (`Util/Sort`: `Sorter`), stable
  sorts a stable sort. `slice::binary_search_by` is an explicit loop; where several elements match, the
  theorems hold for every answer the standard library's contract permits.
* `nom`'s combinators are modelled (`Breakpad/Nom`). `gimli` is not: the tree of entries, the line programs
  and the ranges it decodes are data (`Dwarf/Data`), arbitrary ones in all theorems.
* The operating system (stat, open, read, mmap, ioctl, BPF system calls, `/proc`), decompression, the CRC,
  and the demangler are arbitrary functions or data. For the caches, the file system is a function from
  paths to versions and from versions to contents, another one at every call (`Session/`).
* C memory is a map from addresses to bytes (`CApi/Memory`).

## Layout

In `lean/Verif/<Area>/`: modules without suffix are the translation of the code; `*Spec.lean` are small
independent specifications; `*Lemmas.lean` helper lemmas; `*Props.lean` the property theorems, each with
an `example` that meets its hypotheses. `seeded/LOG.jsonl` records edits of the model that the
theorems were tested against.


## Per-property plan, method and status

Theorem names are in `MANIFEST.json`; here: the modules that model the code (under `lean/Verif/`), the
modules with the property theorems, how they are proved, and what is missing.

* **C01 Batch results come back one per input, in input order** (proved, 5 theorems). Model: Util/Reorder. Theorems: Util/ReorderProps. Method: loop invariant of the in-place reordering (permutation, growing fixed prefix), refinement to a map over the inputs.
* **C02 User address normalization is correct per address** (partial, 23 theorems). Model: Normalize/Walk, Normalize/User, Maps/Maps. Theorems: Normalize/SourceProps, Normalize/UserProps, Normalize/WalkProps. Method: invariant of the two-pointer walk over sorted addresses and mappings; refinement to a specification for one address. Missing: Addresses in the vDSO outside of its symbols (C02_vdso_gap) and files that occur with different build IDs (C02_same_path_shares): there the code does something else than documented.
* **C03 Normalization metadata indices are always valid and shared** (proved, 1 theorems). Model: Normalize/Walk, Normalize/User. Theorems: Normalize/UserProps. Method: invariant over the walk: every index is below the length of the metadata, equal metadata is shared.
* **C04 ELF address lookup is sound** (proved, 4 theorems). Model: Elf/Symtab, Elf/Image. Theorems: Elf/SymtabProps. Method: search lemma for the symbol index, list induction over candidates.
* **C05 ELF address lookup is complete for the nearest start** (partial, 6 theorems). Model: Elf/Symtab, Elf/Image. Theorems: Elf/SymtabProps. Method: search lemma; witness for the missed case. Missing: A symbol that starts at the lowest start of the table, together with another one there, may be missed (C05_fails).
* **C06 Lowest-match binary search** (proved, 3 theorems). Model: Util/Search. Theorems: Util/SearchProps. Method: binary search as an explicit loop; every result the contract of the standard library permits.
* **C07 Match-or-lower-bound search** (partial, 5 theorems). Model: Util/Search. Theorems: Util/SearchProps. Method: as C06. Missing: 'First of equal matches' fails for a run of equal keys that starts the sequence and is below the item (C07_first_of_equals_fails).
* **C08 ELF name lookup returns exactly the defined symbols of that name** (partial, 5 theorems). Model: Elf/Symtab, Elf/Image. Theorems: Elf/NameProps. Method: characterisation of runs in the sorted name index. Missing: Names only in .dynsym are dropped if .symtab has a symbol of the same kind at their address (C08_dynsym_hidden).
* **C09 File offset to virtual offset translation** (proved, 9 theorems). Model: Elf/Image. Theorems: Elf/OffsetProps. Method: arithmetic over segments and sections, first-match lemmas.
* **C10 ELF parsing never reads outside the file** (partial, 19 theorems). Model: Elf/Image, Util/Reader. Theorems: Elf/ImageProps, Elf/SectionProps. Method: byte-level model with explicit bounds; every slice is shown to be drop/take of the image. Missing: Compressed sections whose announced size is wrong (C10_wrong_compressed_size_panics) and the file backend (C10_file_backend_panics) panic.
* **C11 Cursor reads account for every byte** (proved, 12 theorems). Model: Util/Reader. Theorems: Util/ReaderProps. Method: induction over the operations of the cursor.
* **C12 LEB128 decoding inverts encoding** (proved, 6 theorems). Model: Util/Reader. Theorems: Util/ReaderProps. Method: induction on the value; the encoder is the specification.
* **C13 File cache serves current file contents** (proved, 6 theorems). Model: Cache/FileCache. Theorems: Cache/FileCacheProps. Method: invariant by induction over histories of lookups, evictions and pins.
* **C14 File cache reference accounting and eviction** (proved, 5 theorems). Model: Cache/FileCache. Theorems: Cache/FileCacheProps. Method: the same invariant: reference counts equal the number of paths that refer to an entry.
* **C15 A failed cache request changes nothing** (partial, 5 theorems). Model: Cache/FileCache, Cache/ElfCache. Theorems: Cache/ElfCacheProps. Method: case analysis over all failures of a request. Missing: Paths known but not pinned (C15_failed_cache_pins), and a file that was replaced by an unusable one (C15_failed_cache_replaces): the code does not meet the documented claim.
* **C16 Process maps lines parse to what the kernel printed** (partial, 8 theorems). Model: Maps/Maps. Theorems: Maps/MapsProps. Method: round trip with a printer of the kernel's format as specification. Missing: Names that end in blanks are reported without them (C16_trailing_blanks_lost).
* **C17 Maps iteration keeps exactly the relevant entries in order** (proved, 5 theorems). Model: Maps/Maps. Theorems: Maps/MapsProps. Method: list induction; refinement to a filter.
* **C18 GSYM address lookup** (partial, 12 theorems). Model: Gsym/Parser, Gsym/Resolver. Theorems: Gsym/CodeProps, Gsym/LookupProps. Method: search lemmas over the address table. Missing: Entries whose end is beyond the address space (C18_overflow_panics), data that is not aligned (C18_unaligned_unknown, C18_unaligned_misread).
* **C19 GSYM line table execution** (partial, 12 theorems). Model: Gsym/LineTab. Theorems: Gsym/LineProps. Method: induction over the rows of a table, encoded by a specification encoder. Missing: Operators after the last row (C19_trailing_operators); addresses and lines that leave their ranges panic (C19_pc_overflow_panics, C19_line_overflow_panics).
* **C20 GSYM inline information** (proved, 5 theorems). Model: Gsym/Inline. Theorems: Gsym/InlineProps. Method: refinement of the recursive byte decoder against a tree encoder; induction on trees.
* **C21 Breakpad function lookup** (partial, 6 theorems). Model: Breakpad/Resolver. Theorems: Breakpad/LookupProps. Method: search lemmas. Missing: Functions that reach the end of the address space: lookup panics (C21_overflow_panics).
* **C22 Breakpad line lookup** (partial, 4 theorems). Model: Breakpad/Resolver. Theorems: Breakpad/LookupProps. Method: search lemmas. Missing: Line records that reach the end of the address space, and records that contain the address although another one starts nearer (C22_overlap_missed).
* **C23 Breakpad inline stack** (partial, 4 theorems). Model: Breakpad/Resolver. Theorems: Breakpad/InlineProps. Method: induction over depths. Missing: Overlapping records of one depth (C23_overlap_missed) and records that reach the end of the address space (C23_end_missed).
* **C24 A Breakpad file is read as its records say, and anything else is refused** (partial, 9 theorems). Model: Breakpad/Parser, Breakpad/Nom. Theorems: Breakpad/ParserProps. Method: nom's combinators modelled; induction on the records against an independent grammar (Breakpad/Spec). Missing: Files that are not accepted and have lines of 65535 bytes or more (C24_long_line_panics).
* **C25 ZIP entries lie inside the archive** (proved, 5 theorems). Model: Zip/Archive. Theorems: Zip/Props. Method: byte model, bounds.
* **C26 ZIP central directory discovery** (proved, 3 theorems). Model: Zip/Archive. Theorems: Zip/Props. Method: induction over the backwards search for the end record.
* **C27 APK offsets resolve to the contained ELF file** (proved, 4 theorems). Model: Zip/Archive. Theorems: Zip/Props. Method: list induction over the members.
* **C28 Perf map parsing and lookup** (partial, 9 theorems). Model: PerfMap/PerfMap. Theorems: PerfMap/Props. Method: parser round trip, search lemmas. Missing: Functions that reach the end of the address space (C28_overflow_panics); functions with an earlier start are not considered (C28_overlap_missed).
* **C29 Constraining a memory mapping stays inside it** (partial, 6 theorems). Model: Util/Mmap. Theorems: Util/MmapProps. Method: arithmetic; composition of views. Missing: Of an empty file the first byte is not refused (C29_empty_not_refused); ranges beyond the address space panic (C29_overflow_panics).
* **C30 kallsyms parsing and address lookup** (proved, 6 theorems). Model: Kernel/Ksym. Theorems: Kernel/KsymProps. Method: parser round trip, search lemmas.
* **C31 kallsyms name lookup** (partial, 5 theorems). Model: Kernel/Ksym. Theorems: Kernel/KsymProps. Method: list induction. Missing: Other symbols than those of the name can be reported (C31_reports_others, C31_reports_absent).
* **C32 Kernel module map lookup** (partial, 8 theorems). Model: Kernel/ModMap. Theorems: Kernel/ModMapProps. Method: parser round trip, search lemmas. Missing: Modules that end beyond the address space (C32_overflow_panics).
* **C33 depmod index lookup** (proved, 5 theorems). Model: Kernel/Depmod. Theorems: Kernel/DepmodProps. Method: refinement of the byte-level trie walk against a trie specification; well-founded recursion.
* **C34 Kernel address dispatch order** (partial, 17 theorems). Model: Kernel/Resolver. Theorems: Kernel/ResolverProps. Method: case analysis over the configuration. Missing: With a KASLR offset, or in a module, the reported offset is wrong (C34_offset_wrong, C34_module_offset_wrong).
* **C35 KASLR offset detection** (partial, 14 theorems). Model: Kernel/Kaslr. Theorems: Kernel/KaslrProps. Method: round trip over note segments, induction over notes. Missing: A note that starts in the last p_offset bytes of the segment is ignored (C35_tail_ignored); a descriptor of almost 4 GB panics (C35_descriptor_size_panics).
* **C36 DWARF unit search finds all units containing an address** (partial, 7 theorems). Model: Dwarf/Units, Dwarf/Interval. Theorems: Dwarf/UnitsProps. Method: prefix-maximum invariant, search lemmas. Missing: The greatest address (C36_max_wrong) and code beyond the end of the address space (C36_overflow_wrong) panic.
* **C37 DWARF line lookup** (partial, 10 theorems). Model: Dwarf/Lines. Theorems: Dwarf/LinesProps, Dwarf/ResolverProps, Dwarf/TotalProps. Method: search lemmas over sequences and rows. Missing: Empty sequences, lines above 2^32 and files the program does not have (C37_empty_sequence_wrong, C37_huge_line_wrong, C37_file_wrong).
* **C38 DWARF inlined function search** (proved, 6 theorems). Model: Dwarf/Function. Theorems: Dwarf/InlineProps. Method: induction over the depth of the search; refinement to the tree of entries.
* **C39 Source locations are attributed to the right inline frame** (partial, 11 theorems). Model: Symbolize/Convert, Dwarf/Resolver. Theorems: Breakpad/InlineProps, Dwarf/ResolverProps, Gsym/CodeProps, Gsym/DataProps. Method: list induction over the frames. Missing: If the place of the first call is not known, locations are attributed to the wrong frame (C39_dwarf_wrong).
* **C40 Debug link candidate search** (partial, 8 theorems). Model: Dwarf/DebugLink. Theorems: Dwarf/DebugLinkProps. Method: the iterator as a state machine, flattened to an explicit list of candidates. Missing: Relative paths of files that no longer exist (C40_relative_wrong).
* **C41 Debug link section parsing** (partial, 7 theorems). Model: Dwarf/DebugLink. Theorems: Elf/NotesProps. Method: round trip over the bytes of the section. Missing: A section that cannot be read (C41_unreadable_panics).
* **C42 Source/input combinations** (partial, 8 theorems). Model: Symbolize/Symbolizer. Theorems: Symbolize/SymbolizerProps. Method: case analysis over sources and inputs. Missing: An ELF file that cannot be opened: that is reported, not that the input is unsupported (C42_unopened_elf_wrong).
* **C43 Batch symbolization equals single symbolization with folded errors** (partial, 6 theorems). Model: Symbolize/Symbolizer, Normalize/Walk. Theorems: Symbolize/ProcessProps, Symbolize/SymbolizerProps. Method: refinement of the batch to a map of single requests. Missing: Process batches: one address whose file cannot be opened makes the batch fail (C43_process_one_fails_wrong); dispatchers that go by more than the name (C44_dispatcher_shared_wrong).
* **C44 Process symbolization uses the mapping containing the address** (proved, 15 theorems). Model: Symbolize/Symbolizer. Theorems: Symbolize/ProcessOnlyProps, Symbolize/ProcessProps, Symbolize/SymbolizerProps. Method: invariant over the walk with the symbolization handler.
* **C45 Symbol iteration honours the filter and early exit** (partial, 9 theorems). Model: Elf/Symtab, Dwarf/Resolver, Breakpad/Resolver. Theorems: Breakpad/NameProps, Dwarf/NameProps, Elf/NameProps, Kernel/KsymProps. Method: list induction with an arbitrary stateful callback. Missing: Asking to stop during .symtab does not stop .dynsym (C45_break_ignored).
* **C46 C API result buffer is exactly filled** (partial, 8 theorems). Model: CApi/Convert, CApi/Memory, Util/Layout. Theorems: CApi/ConvertProps, CApi/InspectProps. Method: the conversion as writes into a byte region; accounting by induction over the results, reading back. Missing: Reserved members are not written (C46_reserved_wrong).
* **C47 C API error codes are faithful** (proved, 11 theorems). Model: CApi/Codes. Theorems: CApi/CodesProps. Method: case analysis over all codes.
* **C48 Adding context never changes an error's kind** (proved, 8 theorems). Model: Error/Error. Theorems: Error/ErrorProps. Method: induction on layers of context.
* **C49 Build ID note parsing** (partial, 11 theorems). Model: Elf/Notes. Theorems: Elf/NotesProps. Method: induction on bytes. Missing: The owner of the note is not checked to be GNU (C49_other_owner).
* **C50 BPF program tags round trip** (partial, 10 theorems). Model: Kernel/Bpf. Theorems: Kernel/BpfProps. Method: induction on characters. Missing: A sign is accepted (C50_sign_accepted); multibyte characters can panic (C50_panics_iff).
* **C51 Memoizing map never stores failed computations** (proved, 5 theorems). Model: Cache/InsertMap. Theorems: Cache/InsertMapProps. Method: induction over histories.
* **C52 Hexadecimal parsing** (proved, 3 theorems). Model: Util/Text. Theorems: Util/ReaderProps. Method: induction on digits.
* **C53 One parser per file, shared by all views, and no panic on lookup** (partial, 5 theorems). Model: Cache/ElfCache. Theorems: Cache/ElfCacheProps. Method: invariant over histories with nested lookups. Missing: A file whose debug link or package is the file itself under another name: the code panics (C53_self_reference_panics).
* **C54 ELF relocations of object files** (partial, 10 theorems). Model: Elf/Reloc, Dwarf/Reader. Theorems: Dwarf/ReaderProps, Elf/RelocProps. Method: list induction over tables of relocations. Missing: 32 bit objects: symbol 0 is used for every entry (C54_symbol_32_wrong).
* **C55 Splitting a source path into directory and file name** (proved, 10 theorems). Model: Util/Path. Theorems: Util/Extension, Util/Join, Util/PathOpsProps, Util/PathProps. Method: induction on path components.
* **C56 Breakpad name lookup** (proved, 1 theorems). Model: Breakpad/Resolver. Theorems: Breakpad/NameProps. Method: list induction.
* **C57 BPF program information by tag** (partial, 6 theorems). Model: Kernel/Bpf. Theorems: Kernel/BpfProps. Method: induction over the enumeration of programs. Missing: Repeated lookups when programs share a tag (C57_repeat_differs).
* **C58 BPF source locations** (proved, 6 theorems). Model: Kernel/Bpf. Theorems: Kernel/BpfProps. Method: search lemmas over line records, byte-level decoding.
* **C59 Archive members are resolved the same whatever was asked before** (partial, 2 theorems). Model: Zip/ApkCache. Theorems: Zip/ApkCacheProps. Method: invariant over histories of requests for an archive. Missing: Requests that differ in whether to use debug information (C59_debug_syms_ignored_wrong).
* **C60 Input structures of other header versions keep their meaning** (partial, 19 theorems). Model: CApi/Input, CApi/Memory. Theorems: CApi/InputProps. Method: byte-level model of input structures of every announced size. Missing: A reserved member in the middle of the symbolizer options is not looked at (C60_reserved_wrong).
* **C61 The last error belongs to the last call of the thread** (partial, 11 theorems). Model: CApi/Call, CApi/Codes, CApi/Inspect. Theorems: CApi/CallProps. Method: induction over histories of calls of threads. Missing: Names that are not UTF-8 abort the program (C61_inspect_wrong).
* **C62 Function lookup in DWARF data** (proved, 9 theorems). Model: Dwarf/Function, Dwarf/Data. Theorems: Dwarf/FunctionProps, Dwarf/TotalProps. Method: refinement of the table of functions to the tree of entries; search lemmas.
* **C63 Names in DWARF data follow references** (proved, 7 theorems). Model: Dwarf/Function, Dwarf/Units. Theorems: Dwarf/FunctionProps, Dwarf/NameProps. Method: well-founded recursion over references.
* **C64 Symbolization with DWARF data** (partial, 11 theorems). Model: Dwarf/Resolver. Theorems: Dwarf/ResolverProps, Dwarf/TotalProps. Method: composition of C36, C37, C38, C62, C63. Missing: Functions described by ranges only have address zero (C64_ranges_wrong); ranges and an end before the lowest address panic (C64_extent_wrong); functions with code within that of others (C62_nested_wrong).
* **C65 Looking up functions by name in DWARF data** (partial, 4 theorems). Model: Dwarf/Resolver. Theorems: Dwarf/NameProps, Dwarf/TotalExamples. Method: list induction over units. Missing: Of several functions of a unit with the name only the first is reported (C65_all_wrong).
* **C66 Debug information comes from the file it belongs to** (proved, 10 theorems). Model: Dwarf/Open, Dwarf/DebugLink. Theorems: Dwarf/OpenProps. Method: interaction programs (lookups of further files as questions); case analysis.
* **C67 Answers of an inspector do not depend on earlier requests** (partial, 8 theorems). Model: Session/Inspector, Session/Resolve. Theorems: Session/InspectorProps. Method: invariant over all histories of requests and file system states. Missing: Module names (C67_module_wrong) and debug files that appear or vanish after a file's first use (C67_debug_file_wrong).
* **C68 A symbolizer's answers do not depend on what it was used for before** (partial, 9 theorems). Model: Session/State, Session/Symbolize. Theorems: Session/ShapeProps, Session/StateProps, Session/VersionProps. Method: simulation between the caching symbolizer, as a state-passing program, and a symbolizer without caches; invariants over all histories of calls. Missing: Debug information, archive members and the vDSO: only for orderly histories (a file is used under one name and keeps its debug files). Without that it is false: C68_module_wrong, C67_debug_file_wrong, C59_debug_syms_ignored_wrong.
* **C69 Caching pins a version, evicting releases it** (proved, 7 theorems). Model: Session/State, Cache/FileCache, Cache/ElfCache. Theorems: Session/VersionProps. Method: invariants over all later histories.
* **C70 Kernel symbolization with a symbolizer that is used for long** (partial, 10 theorems). Model: Session/Kernel, Kernel/Resolver, Session/State. Theorems: Session/KernelProps. Method: simulation between the kernel resolver with caches and one that opens all files anew; invariants of the kernel cache over all histories of calls. Missing: Debug information: only for orderly histories (a file is used under one name and keeps its debug files). That what is remembered is up to date is false: C70_modules_wrong, C70_kaslr_wrong. Kallsyms files must be text (C70_retry_wrong), and files are reloaded also if this is turned off (C70_auto_reload_wrong).
* **C71 Source locations of BPF programs that are loaded and unloaded** (partial, 9 theorems). Model: Kernel/BpfSys, Kernel/Bpf, Kernel/Ksym. Theorems: Kernel/BpfSysProps. Method: system calls answered by a history of systems; invariants of the caches over all histories and requests; induction over the enumeration of ids. Missing: If several programs have the same tag (C71_shared_tag_wrong), a program was reloaded (C71_reload_wrong) or any program is unloaded meanwhile (C71_race_wrong), the location is wrong or missing.
* **C72 What is reported for an address, from the contents of the files** (partial, 14 theorems). Model: Session/State, Symbolize/Symbolizer, Elf, Maps, Zip, PerfMap, Dwarf/Resolver. Theorems: Session/AnswerProps, Session/DebugAnswerProps. Method: composition of the theorems about each part, and of the simulation of C68 for symbolizers with caches. Missing: A symbol of the lowest start is not found from beyond its start (see C04), nested functions in debug information (C62_nested_wrong), functions at the end of the address space in perf maps.
* **C73 What is reported for a kernel address, from the contents of the files** (partial, 6 theorems). Model: Session/Kernel, Kernel/Resolver, Kernel/Ksym, Kernel/Kaslr, Kernel/Depmod, Kernel/ModMap, Elf. Theorems: Session/KernelAnswerProps, Session/KernelDebugProps. Method: composition of the theorems about each part (C04, C08, C30, C32, C33, C34, C35, C42), and of C70 for symbolizers with caches. Missing: A symbol of the lowest start is not found from beyond its start (see C04); nested functions in debug information (C62_nested_wrong); modules that overlap (C32_overlap_missed).
* **C74 Normalization results handed to C programs: contents, ownership and release** (partial, 6 theorems). Model: CApi/Output. Theorems: CApi/OutputProps. Method: memory as a partial map from addresses to bytes with a list of allocated blocks; a separation argument by induction on the metadata. Missing: A path with a NUL aborts the program (C74_nul_wrong); vectors that are only used meanwhile are not modelled.
* **C75 A normalizer answers from what is there now, whatever it was used for before** (partial, 10 theorems). Model: Session/Normalizer, Normalize/User, Normalize/Source, Cache/FileCache. Theorems: Session/NormalizerProps, Session/ShapeProps. Method: the normalizer as a state threaded through every call; soundness of the caches as an invariant of all histories; a simulation of the cached walk by the walk that reads everything anew. Missing: Failing to read the build ID of an archive member fails the call (C75_archive_build_id_wrong); what is reported per address is as partial as C02; versions of files are assumed to have fixed contents, and all vDSOs to be one.
* **C76 Normalizing now and symbolizing later gives the symbols that symbolizing now gives** (partial, 3 theorems). Model: Session/State, Session/Normalizer, Normalize/User, Symbolize/Symbolizer, Elf/Image. Theorems: Session/RoundTripProps. Method: both ways are computed from the same mapping and compared case by case; reading an ELF image is shown to depend only on the alignment of its place in memory, for members of archives. Missing: Code described by perf maps, which normalization knows nothing of, is left out; C76_histories_partial is as partial as C75 (what a run of normalization does in vDSO gaps) and assumes that files do not change in between; members of archives have to be aligned.
* **C77 What the command line tool prints can be read back and is what the library answers** (partial, 13 theorems). Model: Cli/Args, Cli/Main, with Session/State, Session/Normalizer, Session/Inspector. Theorems: Cli/Props. Method: an independent reader of the printed text (Cli/ReadSpec) is shown to invert printing, by induction on answers; the answers are those of C67, C68 and C75. Missing: Addresses in the vDSO make normalization panic (C77_normalize_vdso_wrong). Names of 65535 bytes or more make listing symbols panic (C77_lookup_long_name_panics, C77_dump_long_name_panics). Names and paths that contain line breaks or the separators of the format are excluded.
* **C78 Traces: every line reaches the callback once, and the tool's trace lines are complete or cut, never mixed up** (partial, 6 theorems). Model: CApi/Trace, Cli/Trace. Theorems: CApi/TraceProps, Cli/TraceProps. Method: induction over the writes of an event and over programs; the bounded buffer as a prefix of the whole text. Missing: What is at level DEBUG is shown as INFO by the command line tool (C78_debug_wrong).
* **C79 Names are shown demangled by the scheme of the language they are written in** (partial, 6 theorems). Model: Symbolize/Convert, Dwarf/Units, Dwarf/Resolver. Theorems: Dwarf/DemangleProps, Symbolize/SymbolizerProps. Method: case analysis of the scheme against a relation; invariant that the language kept for every unit is the one its root entry states. Missing: The language of an inlined function is taken to be that of the function it is inlined into (C79_inlined_wrong); the language of a split unit is looked for in its stub only (C79_split_wrong).
* **C80 The error for a malformed Breakpad file says what is wrong and where** (partial, 7 theorems). Model: Breakpad/Nom, Breakpad/ErrorText, Breakpad/Parser. Theorems: Breakpad/ErrorProps. Method: every parser reports ends of its input, shown combinator by combinator; the line and column of an end are those of an independent specification (Breakpad/ErrorSpec); induction over the records before the broken one. Missing: Lines are numbered from the broken record on, not from the start of the file (C80_line_wrong).
* **C81 What the command line tool prints for addresses follows from the contents of files** (partial, 7 theorems). Model: Cli/Main, Session/Answer, Session/DebugAnswer, Session/BreakpadAnswer, Session/GsymAnswer. Theorems: Cli/FileProps, Cli/SymbolFileProps. Method: composition of C77 (the text determines the answers) with C72 and C73 (the answers follow from the contents of files) through C68 (a new symbolizer answers from the disk); the specification in Cli/FileSpec says what is right for an address, and the theorems that the text printed is that of a list of right answers. Missing: Unusual symbols and layouts named by Absent, files used under two names in one request, what C66 says about which debug information belongs to a file; with debug information errors for single addresses in a request for several are shown as missing symbols; names with line breaks or separators.
* **C82 What is reported for addresses of Breakpad and GSYM files follows from their contents** (partial, 9 theorems). Model: Breakpad/Parser, Breakpad/Types, Gsym/Parser, Gsym/LineTab, Gsym/Inline, Gsym/Resolver, Session/State. Theorems: Session/BreakpadAnswerProps, Session/GsymAnswerProps, Session/SymbolFileHistoryProps. Method: composition of C24 (the records of a text), C21, C22 and C39 (lookups in them) with C42 for Breakpad; for GSYM the data of an entry is shown to consist of items for every file, and the row and the calls collected from them are those of the first item that has any (C18, C19, C20, C39); the specification in Session/BreakpadAnswerSpec, Gsym/DataSpec and Session/GsymAnswerSpec is in terms of records and items; with C68 the same holds for a symbolizer with any history. Missing: Functions and lines of Breakpad files that reach the end of the address space (C21_overflow_panics), overlapping records (any of those that start last), lines of 65535 bytes or more (C24_long_line_panics); damaged entries of GSYM files, entries that share their start, data in memory that is not aligned (C18_unaligned_unknown).
* **C83 What is reported for names follows from the contents of files** (partial, 11 theorems). Model: Elf/Parser, Elf/Types, Breakpad/Resolver, Dwarf/Resolver, Session/Inspector, Cli/Main. Theorems: Cli/LookupProps, Session/NameAnswerProps. Method: composition of C08, C09, C45, C56 and C65 (what the resolvers report) with C24 and C36 (contents of files) and C67 (inspectors with any history); the specification in Session/NameAnswerSpec is in terms of tables of symbols, records, entries and segments; with C77 the same for what the command line tool prints. Missing: The path reported for a file that was used under another path before (C67_module_wrong), a callback that stops is called again for the dynamic table (C45_break_ignored), several functions of one unit with the same name (C65), debug information that changes between calls; symbols that may be overlooked because an equal or smaller one starts with them (C07); names that cannot be printed (C77).
* **C84 Go programs are told what the library reports** (partial, 8 theorems). Model: Go/Bindings on top of CApi/Call, CApi/Input, CApi/Convert and CApi/Output. Theorems: Go/BindingsProps. Method: the memory of C is modelled byte by byte; structure lemmas show that what Go writes is what C60 says the library reads, C61 gives what the library returns, C46 the layout of the buffer, and walking it by the code of the bindings gives back the results; options by induction over their list. Missing: Strings with NULs are cut off (C84_nul_wrong), empty GSYM data panics (C84_empty_data_panics), so do more than 2^30 inlined functions (C84_inlined_panics); one reason has no constant (C84_reason_wrong); goroutines that are moved between threads (C85).
* **C85 What a goroutine is told does not depend on other goroutines** (partial, 5 theorems). Model: Go/Bindings, CApi/Call (errors per thread). Theorems: Go/BindingsProps. Method: schedules are explicit: the thread of the call, what other goroutines leave in the errors of threads, and the thread on which the error is asked for; characterisation for every schedule, and independence of the schedule for goroutines that stay on their thread. Missing: Goroutines that are moved to another thread lose their error (C85_lost_wrong) or report that of another one (C85_stale_wrong).
* **C86 The Go package frees exactly the C memory that it allocates** (partial, 6 theorems). Model: Go/Bindings, CApi/Output (allocations). Theorems: Go/BindingsProps. Method: every allocation is a block of the store; the blocks after a call are a permutation of those before, by tracking what each step adds and frees; arrays of strings by induction over the list of options. Missing: An error of another goroutine makes results leak (C86_leak_wrong), and so does an empty list of debug directories (C86_empty_dirs_wrong).
* **C87 A C program can use any number of symbolizers, in any order of calls, and gets from each what the library has to say, in memory that stays intact until it is freed** (partial, 14 theorems). Model: CApi/Program (on top of CApi/Call, CApi/Output, CApi/Convert and Session/State, Session/Kernel). Theorems: CApi/ProgramProps. Method: a program is its memory, the last error of every thread and the symbolizers there are; by induction over all runs: the blocks in use are those of the symbolizers, of the results in the account and of the program, results in the account are intact, and every symbolizer is reachable in the sense of C68; what is reported follows from C68 and C72. Missing: The theorems by contents of files have the limits of C68 and C72 (files used under one name, symbols before the first one). A program that goes on after the library was aborted, and calls that overlap on one symbolizer, are not covered. The memory the library uses internally is not modelled.
* **C88 A C program can name another ELF file for a mapped file of a process, and addresses there are symbolized with that file** (partial, 7 theorems). Model: CApi/Dispatch (on top of CApi/Output, CApi/Program, Dwarf/Open and Session/State). Theorems: CApi/DispatchProps. Method: the closure over memory with an arbitrary callback: the blocks before and after are compared as multisets; what is reported follows from C44 and C72. Missing: What is reported has the limits of C72 (functions that are not nested, symbols before the first one). The memory that opening a file uses is not modelled, and in histories of calls (C87) the callback is taken to answer the same at all times. Whether a request asks for debug information makes no difference for such mappings (C88_debug_syms).
* **C89 A Go program may create, use and close any number of symbolizers in any order, and is told the same as a Rust program** (partial, 13 theorems). Model: Go/Program (on top of Go/Bindings and CApi/Program). Theorems: Go/ProgramProps. Method: an invariant of all histories: every open symbolizer is reachable, and the memory in use is theirs, the program's own, and at most as many lost pieces as the history counts; requests by the lemmas of C84 to C87. Missing: A symbolizer that is closed keeps its pointer: closing it again is undefined behaviour (C89_close_twice_wrong) or closes another one (C89_other_closed_wrong), and using it is undefined behaviour (C89_use_after_close_wrong). Goroutines that are not locked to their thread have the limits of C85 and C86; what is reported has those of C68 and C72.
* **C90 A C program can use any number of normalizers, in any order of calls, and gets from each what the library has to say, in memory that stays intact until it is freed** (partial, 11 theorems). Model: CApi/Host, CApi/NormProgram (on top of CApi/Call, CApi/Output and Session/Normalizer). Theorems: CApi/NormProgramProps. Method: a program is its memory, the last error of every thread and the normalizers there are; by induction over all runs: the blocks in use are those of the normalizers, of the results in the account and of the program, results in the account are intact, and every normalizer is reachable in the sense of C75; what is reported follows from C75. Missing: What is reported has the limits of C75 (the vDSO of other processes, gaps of a vDSO, one file under several records); a path with a NUL aborts the program (C74_nul_wrong, and in C90_normalize). A program that goes on after the library was aborted, and calls that overlap on one normalizer, are not covered. The memory the library uses internally is not modelled.
* **C91 A C program can use any number of inspectors, in any order of calls, and gets from each the symbols that are in the file, in memory that stays intact until it is freed** (partial, 12 theorems). Model: CApi/Host, CApi/InspProgram (on top of CApi/Call, CApi/Inspect and Session/Inspector). Theorems: CApi/InspProgramProps. Method: a program is its memory, the last error of every thread and the inspectors there are; by induction over all runs: the blocks in use are those of the inspectors, of the results in the account and of the program, results in the account are intact, and every inspector is reachable in the sense of C67; what is reported follows from C67. Missing: A name that is not UTF-8 aborts the program (C91_name_wrong). What is reported has the limits of C67 (files used under one name, debug information that appears later). A program that goes on after the library was aborted, and calls that overlap on one inspector, are not covered. The memory the library uses internally is not modelled.
* **C92 What an open ELF file answers does not depend on what it was asked before** (proved, 5 theorems). Model: Elf/Lazy (on top of Elf/Symtab, Elf/Image, Elf/Reloc). Theorems: Elf/LazyProps. Method: the parts a parser keeps are a state, and its functions computations on that state; an invariant says that a part that is kept is what is computed from the contents, and by induction over the functions every computation has the result of the functions without state and preserves it.
* **C93 What the debug information of a file answers does not depend on what it was asked before** (proved, 4 theorems). Model: Dwarf/Lazy (on top of Dwarf/Units and Dwarf/Resolver). Theorems: Dwarf/LazyProps. Method: the cells of all units and functions are a state, and the functions computations on that state, with storing into a filled cell as a panic; which units are used while references are followed is left open; an invariant says that what is kept is what is decoded from the contents, and by induction every computation has the result of the functions without state and preserves it.
* **C94 Programs built against the C header find the members of structures where the library puts them** (proved, 15 theorems). Model: CApi/Abi (on top of CApi/Input). Theorems: CApi/AbiProps. Method: a type is a function from targets to sizes and alignments; both declarations of every structure, in Rust and in the header, are transcribed and shown to have the same layout on every target; the layout rule is shown to be correct by induction over the members, versions by the offsets of a common beginning, buffers by divisibility.
* **C95 Symbolizers, normalizers and inspectors of one program do not get in each other's way** (proved, 7 theorems). Model: CApi/Whole (on top of CApi/Program, CApi/NormProgram and CApi/InspProgram). Theorems: CApi/WholeProps. Method: programs of all kinds of calls are an inductive predicate; by induction over them, what one kind of object sees is a program of C87, C90 or C91 in which the memory of the other kinds belongs to the program; that a call leaves other memory alone is shown for each call.
* **C96 What the C API reports about an address can be symbolized later with the same result** (partial, 1 theorems). Model: CApi/Whole, and the models below it. Theorems: CApi/WholeTripProps. Method: composition: C90 for what is handed out, C76 and C75 for what each address is reported as, C68 for symbolizers that were used before, C43 for groups of offsets, C87 and C95 for what the C program is given. Missing: The limits of C76 and C90 apply: histories in which files are versioned, no addresses between the symbols of a vDSO, no map files and perf maps; mappings that a normalizer kept have to be those of the process. The C API has no function for offsets in archives.
* **C97 Open GSYM, Breakpad and kallsyms files answer the same whatever they were asked before** (proved, 7 theorems). Model: Opened/Model: the resolvers with the buffer of inlined functions and the indexes of names as state, frames pushed before an error included. Theorems: Opened/Props. Method: the outcome of every function with a state is that of the function without (Gsym/Resolver, Breakpad/Resolver, Kernel/Ksym), by induction over the nested inline information; an invariant for the indexes; induction over requests.
* **C98 Names lead to addresses and addresses lead back to names** (partial, 11 theorems). Model: Elf/Symtab, Breakpad/Resolver, Kernel/Ksym, Session/Inspector, Session/State: the indexes by address and by name over the same symbols. Theorems: TwoWay/FileProps, TwoWay/Props. Method: at the start of a symbol the nearest start is its own, so completeness of address lookup (C05, C21, C30) applies; exactness of name lookup (C08, C56, C31) gives the other direction; for inspectors and symbolization of files from C83, C72 and C82. Missing: ELF symbols that are in .dynsym only while something in .symtab covers their address (C98_elf_wrong), or that share their name with a symbol in .symtab (C98_elf_hidden). Functions and lines of Breakpad files that reach the end of the address space (C21_overflow_panics). Names in debug information (C64_ranges_wrong, C65_all_wrong) are left out.
* **C99 Listing all symbols of a file and looking up names give the same symbols** (partial, 6 theorems). Model: Elf/Symtab, Breakpad/Resolver, Kernel/Ksym, Session/Inspector: looking up names and visiting all symbols, over the same data. Theorems: Listing/Props. Method: the symbols that are reported are told apart by their position in the table; two sets of positions are compared, and descriptions are determined by the symbol; C67 carries it to inspectors. Missing: Names that are in both .symtab and .dynsym of an ELF file (C99_elf_wrong); kernel symbols of other names are found as well (C31_reports_others). Listings name no module, so modules are not compared. Debug information is left out (C65_all_wrong).
* **C100 A place in an ELF file has the same symbol however it is given** (partial, 4 theorems). Model: Symbolize/Symbolizer, Session/Resolve, Session/State, Elf/Symtab: symbolizing offsets in files, virtual addresses and addresses of processes. Theorems: Places/Props. Method: C09 says which virtual address an offset is translated to, also by a resolver with debug information; the requests then look up the same address with the same resolver; C44 leads from a mapping to an offset in a file; C68 carries it to symbolizers with histories. Missing: Histories are the orderly ones of C68. For processes whose files are opened through map_files, equality is proved without debug information, where the linked file has the same contents. Members of archives have to be aligned to 8 bytes.
* **C101 A reported symbol contains the address it is reported for** (partial, 5 theorems). Model: Symbolize/Symbolizer, Symbolize/Convert, Session/State, Elf/Symtab, Breakpad, Gsym, PerfMap, Dwarf/Resolver: symbolizing addresses. Theorems: Extent/Props. Method: every resolver is shown to find only symbols that end behind the address (C04, C21, C28, C64 and the lookup of GSYM); an invariant of the walk over the mappings of a process, which includes the resolvers dispatchers have supplied; C01 for the order of results; C68 carries it to symbolizers with histories. Missing: For symbols of a kernel image that is not loaded where it was linked for, the claim is false (C101_kernel_wrong, see also C34_offset_wrong); the kernel is left out. Debug information must not give a function both a list of ranges and a lowest address with an end, which the DWARF standard does not allow: the symbol of such a function may end before the address (C101_debug_wrong). Histories are the orderly ones of C68.
* **C102 A setting of a symbolizer only changes what it is about** (partial, 8 theorems). Model: Symbolize/Symbolizer (also Symbolize/ProcessOnlyProps), Symbolize/Convert, Session/State, Elf/Symtab, Breakpad, Gsym, PerfMap, Dwarf/Resolver: symbolizing addresses with two settings. Theorems: Options/KernelProps, Options/Props, Symbolize/ProcessOnlyProps. Method: two runs side by side: a relation between their results that holds for each resolver is carried through the translation of offsets, the walk over the mappings of a process with the resolvers a dispatcher has supplied, the order of results (C01) and the treatment of errors; that code information leaves the rest of a symbol alone is shown for each resolver; C68 carries it to symbolizers with histories. Missing: Demangling (C102_demangle) is proved for all sources. For source locations and inlined functions the kernel is covered if the lines of BPF programs can be read (C102_kernel_partial); if not, the symbol itself may change (C102_bpf_wrong). For GSYM data the name may depend on whether inlined functions are asked for, as it is then taken from the inline information (C102_gsym_wrong). Options of a process source are covered for single addresses by C44, for batches if dispatchers go by name, as in C43. Histories are the orderly ones of C68.

No property on the list is inexpressible; what the operating system does is abstracted as above.

## Where the code does not do what is documented or expected

Each of these is a theorem with a concrete witness (or an exact condition), named here; the related property is then proved only in part, or its statement names the condition.

* `C02_execute_only`: (defect): an address in a mapping that is executable but not readable is normalized if the maps file is used and unmapped if the ioctl is.
* `C02_query_all_above_fails`: (defect): if the kernel knows of no mapping that ends above the first address, the whole call fails instead of reporting the addresses as unmapped.
* `C02_same_path_shares`: (defect): two mappings of files with the same path, but different build IDs (the first file was deleted and replaced), share the record of the first.
* `C02_vdso_gap`: (defect): for an address in the vDSO that belongs to no symbol, the offset in the vDSO is reported instead of the address.
* `C05_fails`: (the unrestricted claim fails): in every table whose lowest start address `k` is the nearest start for `addr ≠ k` and whose smallest symbols at `k` are not reportable, the lookup finds nothing — whatever larger symbols at `k` cover `addr`.
* `C05_fails_witness`: (concrete witness of the miss): the function of size 16 at `0x1000` covers `0x1008`, but nothing is reported — for every order of equal elements.
* `C07_first_of_equals_fails`: (the documented "first of all equal ones" fails): for a sequence that starts with a run of at least two equal keys below the searched one, the last index of that run is returned. This holds for *every* such sequence.
* `C07_first_of_equals_witness`: The concrete witness of the defect: in `[5, 5]` the lower bound of `6` is reported at index 1, not at the first of the equal elements.
* `C08_bad_name_fails_all`: (fragility): one symbol of a supported type whose name lies outside of the string table makes *every* name lookup in the file fail.
* `C08_dynsym_hidden`: (defect: hidden dynamic symbols): a name that only `.dynsym` has is not found when `.symtab` yields, for each dynamic symbol of that name, any symbol of the same kind covering its address — whatever that symbol is called.
* `C10_file_backend_panics`: (negative) for the file backend (`/proc/kcore`) an excessive number of section headers makes the parser panic (capacity overflow) instead of returning an error.
* `C10_no_section_headers`: (negative) a 64 bit file without section header table (`e_shoff` and `e_shnum` 0) is not treated as having no sections: its section count is taken from the bytes of the file header itself, namely `e_phoff`.
* `C10_wrong_compressed_size_panics`: (negative) a compressed section whose header announces a size that differs from what decompression yields makes the parser panic (`debug_assert`).
* `C101_debug_wrong`: (negation) The symbol of a function that has both kinds of extent in debug information may end before the address it is reported for.
* `C101_kernel_wrong`: (negation, kernel) The offset that is reported for a symbol of the kernel that is not loaded at the address it was linked for is beyond the end of the symbol.
* `C102_bpf_wrong`: (negation, BPF programs) If the lines of a BPF program cannot be read, asking for source locations changes which symbol is reported where the kernel image has a symbol of unknown size: the error is dropped and the symbol of the image is reported in place of the program.
* `C102_gsym_wrong`: (negation, GSYM) Whether inlined functions are asked for may change the name of the symbol itself.
* `C12_uleb_overlong_panics`: (defect on malformed data): an encoding with ten or more continuation bytes makes the decoder shift by more than 63 bits, which panics in a build with overflow checks.
* `C15_failed_cache_pins`: (violation 1). A path that was looked up before (hence known, not pinned) in a reloading cache: a failing request to cache it, because the file is momentarily missing, pins the old file. A later lookup then returns the old identity although the file system reports another one, whereas without the failed request it would return the present one.
* `C15_failed_cache_replaces`: (violation 2). A path pinned at `m` whose file was replaced by one (identity `m2`) that does not parse: the failing request leaves the path pinned at the unusable new file, so that later lookups return `m2` instead of the previously cached `m`.
* `C16_trailing_blanks_lost`: (negative) blanks at the end of the name of a mapping are lost: the entry is that of another name.
* `C18_overflow_panics`: (defect): looking up an address in an entry whose end exceeds the address space panics.
* `C18_unaligned_misread`: (defect): the same bytes are read differently when they are at an address that is not a multiple of four, because the tables are aligned by address instead of by file offset: looking up the address found above fails.
* `C18_unaligned_unknown`: (defect): data that is not at an address that is a multiple of the width of an address table entry (possible when GSYM data is passed as a byte slice) has no known addresses, whatever its contents.
* `C19_line_overflow_panics`: (defect): a special operator that takes the line beyond the greatest 31 bit number panics, although line numbers have 32 bits. So `C19_row` cannot do without its condition that the lines stay below.
* `C19_pc_overflow_panics`: (defect): advancing the address beyond the address space panics.
* `C19_trailing_operators`: (defect): an address not below the last row is attributed to the *state after the program*, so operators that follow the last row change its file and line.
* `C19_trailing_operators_witness`: (defect, instance): the row for line 10 of file 1, followed by operators that add no row, is reported as line 15 of file 3.
* `C21_overflow_panics`: (negation): a function that reaches the end of the address space makes the lookup of every address that it is nearest to panic.
* `C21_same_start_differs`: (the exception in `C21_same_start`): of two functions with the same start, the larger one is found if they are the first in the file, the smaller one otherwise.
* `C22_overlap_missed`: (negation): a line record that contains the address is not found if another one starts nearer to the address, even if that one ends before it.
* `C23_end_missed`: (negation): an inlined call that reaches the end of the address space is never found.
* `C23_overlap_missed`: (negation): an inlined call that contains the address is missed if another of the same depth starts nearer, even if that one ends before the address.
* `C24_long_line_panics`: A file that is read is read however long its lines, but one that is not makes the library panic if what is wrong is beyond column 65535 of a line: the message is to show a caret there, and a width of `format!` is at most 65535 since Rust 1.87. Here, `FUNC` is followed by that many spaces and no address.
* `C28_overflow_panics`: (overflow): a function that reaches the end of the address space makes every lookup panic that goes by it.
* `C28_overlap_missed`: (overlap): an address that is only contained in a function that started earlier than another one before the address is not found.
* `C29_empty_not_refused`: (negation): of an empty file, which shows no bytes, the range of the first byte is not refused.
* `C29_overflow_panics`: (overflow): a range whose end lies beyond the address space, seen from the start of the view, makes the call panic rather than fail.
* `C31_reports_absent`: (absent names): looking up a name that no symbol has reports other symbols whenever there is a smaller name.
* `C31_reports_others`: (others are reported): looking up a name also reports every symbol whose name sorts after it. So the claim that exactly the symbols of the name are reported is false as soon as there is a greater name.
* `C32_overflow_panics`: (panic): the lookup panics exactly if a module it considers ends beyond the 64 bit address space; otherwise there is an answer.
* `C32_overlap_missed`: (overlap): if a module starts inside another one, addresses of the latter beyond the former are not attributed to any module.
* `C33_panics_iff`: (malformed indices): every lookup ends, with a result or an error. It panics exactly if the name ends at a node whose range of children is reversed or has all 256 bytes.
* `C34_module_offset_wrong`: (offset, negative): similarly for modules, by the start of the module.
* `C34_offset_wrong`: (offset, negative): with a KASLR offset, the offset reported for a symbol of the kernel image is too large by the KASLR offset. So the claim that it is the distance of the address from the start of the symbol is false.
* `C34_zst_not_decompressed`: (compressed modules, negative): files with the extension that the kernel's build uses for Zstandard compression, `zst`, are not decompressed. So the claim that compressed modules are decompressed is false.
* `C35_descriptor_size_panics`: (defect): a note (other than kernel core information) without a name that announces a descriptor of almost 4 GB, the greatest three sizes there are, makes the detection panic instead of reporting malformed data. So `C35_no_panic` cannot do without its condition.
* `C35_missing_kcore`: (no kernel core file): if the file does not exist, no offset is detected, whatever the addresses of `_stext` are: the comparison of symbols, meant to be the fallback also for that, is never made. So the claim that the offset is detected from the symbols when there is no kernel core file is false.
* `C35_tail_ignored`: (end of the segment): the offset of a note in the file is compared with the size of the segment. So a segment is ignored completely if its offset in the file exceeds its size, and the claim that `KERNELOFFSET` is found wherever it is in the notes is false.
* `C36_max_wrong`: (the last address, negation): searching for the units of the greatest address overflows.
* `C36_overflow_wrong`: (overlong code, negation): a unit whose code would go beyond the end of the address space makes the parser panic.
* `C37_empty_sequence_wrong`: does not hold if there are empty sequences (and therefore `Orderly` excludes them): an empty sequence at the start of another one can hide it. Here, the row for `0x10` is in effect at `0x18`, but no location is found (`src/dwarf/lines.rs:183-191`).
* `C37_file_wrong`: does not hold for rows that refer to a file the line program does not have: the search panics (`src/dwarf/lines.rs:167`).
* `C37_huge_line_wrong`: does not hold for lines above `u32::MAX`: their high bits are dropped. Here, line `2^32 + 7` is reported as line 7 (`src/dwarf/lines.rs:124`).
* `C39_dwarf_wrong`: (DWARF, negation): if the place of the first call is not known, the function itself is reported at the location of the address, although the address is in inlined functions, and the innermost inlined function has no location.
* `C40_precedence_wrong`: does not hold in the form given by the documentation of `set_debug_dirs`, which says that the directory of the file itself has the highest precedence: with a debug file there and another one in one of the given directories, the latter is used.
* `C40_relative_wrong`: does not hold for a relative path of a file that no longer exists (only such paths are used without resolving them): instead of the root, the first directory of the path is dropped, so that the directory `/lib/debug/a` is not searched.
* `C41_unreadable_panics`: (negative) a debug link section that cannot be read makes the call panic.
* `C42_unopened_elf_wrong`: C42 does not hold: absolute addresses are not a kind of input for ELF files, but if the file cannot be opened that is what is reported, not that they are unsupported.
* `C43_process_one_fails_wrong`: C43 does not hold for processes: an address for which the file mapped there cannot be opened makes the whole batch fail, though `symbolize` documents that problems with individual addresses are reported as such, and though other addresses of the batch can be symbolized on their own.
* `C44_dispatcher_shared_wrong`: C44 does not hold for a dispatcher that goes by the address range it is given: of two mappings with the same name the dispatcher is only asked about the first that is needed; its resolver is used for the other as well, though on its own that would get another one.
* `C44_overflow`: (overflow): an offset of a mapping that, with the address, exceeds 64 bits is a panic; the kernel reports no such mappings.
* `C45_break_ignored`: (defect: early exit is not honoured across tables): a callback that asks to stop at the very first symbol is called again for `.dynsym`.
* `C45_dwarf_text_wrong`: (DWARF, negation): a function whose name is not text makes the iteration panic.
* `C46_reserved_wrong`: , negation for reserved members (finding F45): not every byte of the allocation is written. The reserved bytes of the structure of a symbol keep whatever the allocator left there.
* `C49_other_owner`: (negative) the owner of the note is not checked: the descriptor of any type 3 note is reported, for example that of a SystemTap probe (`stapsdt`, `NT_STAPSDT` = 3).
* `C49_overflow_panics`: (negative) a name size of 2^32 - 3 or more overflows the computation of the padded size: a panic instead of an error.
* `C49_unreadable_panics`: (negative) a note section that cannot be read (for example because it extends beyond the end of the file) makes the call panic.
* `C50_panics_iff`: (panic): reading a tag panics exactly on texts of 16 bytes where, after numbers of two characters each, a character does not end where the next such number would.
* `C50_parse_panics`: (kernel symbols, errors): classifying a name fails only by the panic of reading a tag.
* `C50_sign_accepted`: (a sign is accepted): `+` followed by a digit stands for a byte of a tag, although it is not hexadecimal; the claim that only 16 hexadecimal characters are accepted is false.
* `C52_overflow_panics`: (failure modes): a non-digit met before the value overflows gives `None`; a digit string whose value does not fit panics (in a build with overflow checks; release builds wrap silently).
* `C53_self_reference_panics`: (violation). On an empty cache, asking for the debug-info view of a file whose package file is another name for the same file (path `p`, nested path `q`, one identity `m`) panics, although every file operation, parsing and building succeed.
* `C54_symbol_32_wrong`: does not hold of 32 bit objects: the symbol of a widened entry is taken from the upper 32 bits of `r_info`, which are always 0, instead of from bits 8 and up, so the place is relocated with the value of symbol 0.
* `C57_repeat_differs`: (repeated lookups differ): if several programs have the tag, the first lookup answers with the first of them and every later one with the last.
* `C59_debug_syms_ignored_wrong`: C59 does not hold: once an offset of a member has been requested with or without debug information, all later requests for the member are answered that way, whatever they ask for.
* `C60_reserved_wrong`: The full property would be that reserved members other than zero are always refused. The one in the middle of the symbolizer options is not looked at.
* `C61_inspect_wrong`: The full property would be that a symbol lookup always comes back, with an error if something is wrong. It aborts the program if a name is not UTF-8.
* `C62_nested_wrong`: (nested functions; negation): without the proviso of `C62_complete` functions are missed. If the code of the second function of a unit lies within that of the first one, no function is found for the addresses of the first function beyond the second one.
* `C64_extent_wrong`: (negation): symbolization panics for a function whose entry has both a list of ranges and an end before its lowest address.
* `C64_ranges_wrong`: (negation): the symbol of a function described by a list of ranges only has address zero and no size.
* `C65_all_wrong`: (all functions, negation): of two functions of a unit with the same name, only the first one is reported.
* `C66_fallback_sym_wrong`: the same for the symbol of an address.
* `C66_fallback_wrong`: does not hold for symbols that are only in the symbol table: if there is a separate file with debug information, what is reported is what that file's symbol table says, with that file as module and with offsets into it.
* `C67_debug_file_wrong`: (negative) if a file's debug file appears after the file was first used, it is not used: the symbol `f` of `/bin/a`, which is in the debug file only, is not found, although a new inspector does find it.
* `C67_module_wrong`: (negative) the module that is reported can be another path than the one that was asked for: the path under which the same file was used first.
* `C68_module_wrong`: (negative) the module that is reported can be the path under which the same file was used first.
* `C69_evict_alias_wrong`: (negative) evicting a process by its number leaves mappings that were cached by the special number for the own process, although it is the same process.
* `C70_auto_reload_wrong`: (negative) kernel files are reloaded also if the symbolizer was told not to.
* `C70_kaslr_wrong`: (negative) if the first request has a file that does not tell the KASLR offset, 0 is remembered as offset, and is used for requests with files that tell it: addresses are not found in `vmlinux`.
* `C70_modules_wrong`: (negative) a module that was loaded after the first request is not seen: its addresses are reported to be in the core kernel.
* `C70_retry_wrong`: (negative) a kallsyms file that is not text is refused, but only once: then it is taken to be empty.
* `C71_race_wrong`: (unloading meanwhile): if any program is unloaded while the programs are enumerated, asking for a location may fail, although the program it is about is loaded all the time.
* `C71_reload_wrong`: (reloading): after a program was unloaded and loaded again, its old id is still used for those of its functions that were not asked about before, and asking about them fails from then on, although a program with that tag is loaded all the time.
* `C71_shared_tag_wrong`: (shared tags): a program that is loaded twice has the same tag twice, and locations for the addresses of one of them are taken from the other, so all addresses of the second are attributed to the last line of the first.
* `C74_nul_wrong`: (violation). If a path has a NUL, as a member of an APK may have, the program is aborted instead of getting an error.
* `C75_archive_build_id_wrong`: (defect) The documentation says that failures to read build IDs do not make normalization fail. They do for members of archives: if the member an address is in is not an ELF file, say, then the whole call fails (unless build IDs are disabled).
* `C77_dump_long_name_panics`: (negative) the same if all symbols are to be printed.
* `C77_lookup_long_name_panics`: (negative) the inspector finds symbols, but the program panics, and prints nothing, if one of them has a name of 65535 bytes or more: it is the width of a column, and a width of `format!` is at most 65535 since Rust 1.87.
* `C77_normalize_vdso_wrong`: (negative) the library answers, but the program panics as soon as an address is in the vDSO; what is before it is printed, what is after it is not.
* `C78_debug_wrong`: (negative) what is at level `DEBUG` is shown as if it were at level `INFO` (in another colour).
* `C79_inlined_wrong`: (negation): the name of an inlined function is shown according to the language of the function it is inlined into. In a file where a function in C++ is inlined into a function in Rust its mangled name is reported, although the scheme of C++ recognises it.
* `C79_split_wrong`: (negation): if a unit is split, the language is not looked for where its entries are, but only in the stub that is left of it, which need not state it. Then a name in C++ that the scheme of Rust recognises too is shown as if it were in Rust.
* `C80_line_wrong`: The number of the line is wrong unless the first record is what is wrong: here, it is the third line that is, and the message says line 1.
* `C84_empty_data_panics`: The full property would be that GSYM data may be empty (which is then reported as an error by the library). Looking at its first byte panics.
* `C84_inlined_panics`: The full property would be that results are returned however many there are. Those with more than `1 << 30` inlined functions are never returned.
* `C84_nul_wrong`: The full property would be that a path is used as it is. If it has a NUL, the file whose path ends before the NUL is used.
* `C84_panics`: . The only ways the functions that symbolize do not return: memory runs out, there are no bytes of GSYM data, or a symbol has more than `1 << 30` inlined functions. In particular nothing is accessed that is not allocated, and nothing is freed twice.
* `C84_reason_wrong`: The full property would be that every reason has a constant. The one for errors that were ignored has none.
* `C85_lost_wrong`: The full property would be that an error of the library is reported. If the goroutine is moved to another thread before it asks for the error, it is told that there are no results.
* `C85_stale_wrong`: The full property would be that no error is reported if the library finds results. If the goroutine is moved to a thread on which another one called the library without success, that error is reported.
* `C86_empty_dirs_wrong`: The full property would be that creating a symbolizer frees all memory that it allocates. An empty list of debug directories is not freed.
* `C86_leak_wrong`: The full property would be that all memory is freed. If the error of another goroutine is reported, the results of the library are not freed.
* `C89_close_twice_wrong`: The full property would be that a symbolizer can be closed twice, and that a closed symbolizer reports an error. The pointer is kept when a symbolizer is closed: to close it again, or to use it, is undefined behaviour (if the address is not that of another symbolizer meanwhile, see `C89_other_closed_wrong`).
* `C89_other_closed_wrong`: The full property would be that closing a symbolizer again does nothing. It closes another symbolizer, if that one has the same address meanwhile.
* `C89_panics`: (requests) The only ways a request to a symbolizer that is not closed does not return: memory runs out, there are no bytes of GSYM data, the library panics, the results are larger than any memory, or a symbol has more than `1 << 30` inlined functions.
* `C89_use_after_close_wrong`: The full property would be that a closed symbolizer reports an error. Whatever it is asked, the call does not come back, or its behaviour is undefined.
* `C91_name_wrong`: (requests; negative) A name that is not UTF-8 is no error: the program is aborted.
* `C98_elf_hidden`: (defect): at 0x2000 there is a symbol `foo`, but looking up `foo` does not report it: symbols of `.dynsym` are looked at only if `.symtab` has none of the name.
* `C98_elf_wrong`: (defect): `foo` is found by name at 0x2000, but symbolizing 0x2000 gives another symbol, a variable that starts at 0x1000: name lookup sets aside symbols of `.dynsym` only if `.symtab` has one of the same kind there, address lookup prefers `.symtab` whatever the kind.
* `C99_elf_wrong`: (defect): a listing of `TwoWay.sameName` has two symbols `foo`, looking up `foo` gives one.


## Modelled and not modelled, by file

Not modelled, and not covered by any theorem:

* taking the command line apart (`clap`), the error message that the command line program ends with, and errors of
  writing its output (the rest of `cli/` is modelled in `Cli/`);
* the `tracing` libraries: an event comes with its text (`capi/src/trace.rs` and `cli/src/trace.rs` themselves are
  modelled in `CApi/Trace` and `Cli/Trace`); which events the library traces;
* build scripts, tests and benchmarks;
* `gimli`'s decoding of DWARF bytes: what it reads from sections is modelled (`Dwarf/Reader`, relocations in
  `Elf/Reloc`), what it makes of it is given as trees of entries and line programs (`Dwarf/Data`);
* the kernel's side of the BPF system calls: programs and their data are a history of systems that changes
  arbitrarily between calls (`Kernel/BpfSys`), ids are not reused, and buffers the kernel did not fill are
  taken to be zero;
* decompression, the two demanglers (of Rust and of C++ names), CRC: arbitrary functions;
* system calls: arbitrary results;
* `Debug`, `Display` (except for errors), conversions between equal types, `Send`/`Sync`, memory safety of
  `unsafe` blocks as such (bounds of what they read and write are modelled in `Util/Mmap`, `Util/Reader`,
  `CApi/`);
* 32 bit and big-endian targets (32 bit ELF files are modelled).
* of the Go bindings (`Go/Bindings`): `Symbolizer.Close` during another call, options written by the
  user of the package that call `SymbolizerOptions.Close` themselves, and running out of Go memory;
  the declarations of the C header are taken to agree with the Rust structures.

| File | code lines | cited by the model | modules |
|---|---|---|---|
| src/apk.rs | 19 | 100% | Zip/Archive |
| src/breakpad/file.rs | 21 | 90% | Breakpad/ErrorText, Breakpad/Parser |
| src/breakpad/mod.rs | 5 | 0% | - |
| src/breakpad/parser.rs | 484 | 95% | Breakpad/ErrorText, Breakpad/Nom, Breakpad/Parser |
| src/breakpad/resolver.rs | 185 | 88% | Breakpad/Resolver, Opened/Model, Session/Inspector |
| src/breakpad/types.rs | 143 | 87% | Breakpad/Types, Opened/Model |
| src/cfg.rs | 21 | 0% | - |
| src/dwarf/debug_link.rs | 155 | 98% | Dwarf/DebugLink, Elf/Notes, Util/PathOps |
| src/dwarf/function.rs | 412 | 88% | Dwarf/Function, Dwarf/Lazy |
| src/dwarf/lines.rs | 143 | 98% | Dwarf/Lines |
| src/dwarf/location.rs | 6 | 100% | Dwarf/Lines |
| src/dwarf/mod.rs | 11 | 0% | - |
| src/dwarf/range.rs | 57 | 78% | Dwarf/Function |
| src/dwarf/reader.rs | 43 | 93% | Dwarf/Reader |
| src/dwarf/relocate.rs | 8 | 100% | Dwarf/Reader |
| src/dwarf/resolver.rs | 389 | 87% | Cache/ElfCache, Dwarf/DebugLink, Dwarf/Lazy, Dwarf/Open, Dwarf/Resolver, Session/Resolve |
| src/dwarf/unit.rs | 236 | 81% | Dwarf/Data, Dwarf/Function, Dwarf/Lazy, Dwarf/Units |
| src/dwarf/units.rs | 324 | 87% | Dwarf/Function, Dwarf/Lazy, Dwarf/Units |
| src/elf/mod.rs | 12 | 25% | Dwarf/DebugLink, Session/Inspector |
| src/elf/parser.rs | 1102 | 82% | Dwarf/Open, Elf/Image, Elf/Lazy, Elf/Reloc, Elf/Symtab |
| src/elf/relocations.rs | 46 | 73% | Elf/Reloc |
| src/elf/resolver.rs | 180 | 73% | Cache/ElfCache, Cache/FileCache, Dwarf/Open, Session/Resolve, Session/State |
| src/elf/types.rs | 580 | 27% | Elf/Image, Elf/Notes, Elf/Reloc, Elf/Types, Util/Layout |
| src/error.rs | 449 | 45% | Basic, CApi/Program, Error/Error |
| src/file_cache.rs | 179 | 72% | Cache/FileCache |
| src/gsym/inline.rs | 127 | 97% | Gsym/Inline, Opened/Model |
| src/gsym/linetab.rs | 80 | 88% | Gsym/LineTab |
| src/gsym/mod.rs | 6 | 0% | - |
| src/gsym/parser.rs | 115 | 98% | Gsym/Parser |
| src/gsym/resolver.rs | 244 | 81% | Gsym/LineTab, Gsym/Parser, Gsym/Resolver, Opened/Model, Session/State |
| src/gsym/types.rs | 30 | 96% | Gsym/Parser, Util/Layout |
| src/insert_map.rs | 73 | 79% | Cache/InsertMap |
| src/inspect/inspector.rs | 120 | 94% | Session/Inspector, Session/Resolve |
| src/inspect/mod.rs | 40 | 22% | CApi/Inspect, Dwarf/Open, Elf/Symtab, Kernel/Ksym |
| src/inspect/source.rs | 77 | 77% | Cli/Main, Session/Inspector |
| src/kernel/bpf/btf.rs | 58 | 89% | Kernel/Bpf, Kernel/BpfSys |
| src/kernel/bpf/mod.rs | 7 | 0% | - |
| src/kernel/bpf/prog.rs | 280 | 88% | Kernel/Bpf, Kernel/BpfSys, Kernel/Ksym |
| src/kernel/bpf/sys.rs | 164 | 67% | Kernel/Bpf, Kernel/BpfSys |
| src/kernel/cache.rs | 83 | 66% | Kernel/Kaslr, Session/Kernel, Session/Resolve |
| src/kernel/depmod.rs | 133 | 94% | Kernel/Depmod, Session/Kernel |
| src/kernel/kaslr.rs | 100 | 99% | Kernel/Kaslr, Session/Kernel |
| src/kernel/ksym.rs | 235 | 66% | Kernel/BpfSys, Kernel/Ksym, Opened/Model, Session/Kernel |
| src/kernel/mod.rs | 11 | 0% | - |
| src/kernel/modmap.rs | 82 | 87% | Kernel/ModMap, Session/Kernel |
| src/kernel/resolver.rs | 214 | 93% | Kernel/Resolver, Kernel/System, Session/Kernel |
| src/lib.rs | 119 | 9% | CApi/Abi, Elf/Types, Kernel/Resolver |
| src/maps.rs | 267 | 64% | Maps/Maps, Session/State |
| src/mmap.rs | 83 | 57% | Util/Mmap |
| src/normalize/buildid.rs | 41 | 97% | Cli/Main, Elf/Notes, Session/Normalizer |
| src/normalize/ioctl.rs | 186 | 84% | Normalize/User |
| src/normalize/meta.rs | 60 | 6% | CApi/Output, Normalize/User |
| src/normalize/mod.rs | 24 | 25% | CApi/NormProgram, Normalize/User, Session/Normalizer |
| src/normalize/normalizer.rs | 249 | 85% | CApi/Input, Normalize/User, Normalize/Walk, Session/Normalizer, Zip/Archive |
| src/normalize/user.rs | 242 | 94% | CApi/Output, Normalize/User, Normalize/Walk, Session/Normalizer, Session/Symbolize |
| src/pathlike.rs | 28 | 0% | - |
| src/perf_map.rs | 125 | 90% | PerfMap/PerfMap, Session/State |
| src/pid.rs | 25 | 24% | Cli/Args, Session/State |
| src/symbolize/cache.rs | 69 | 81% | Session/State |
| src/symbolize/evict.rs | 66 | 93% | Session/State |
| src/symbolize/mod.rs | 250 | 45% | CApi/Codes, Cli/Main, Elf/Symtab, Symbolize/Convert, Symbolize/Symbolizer, Symbolize/Types |
| src/symbolize/source.rs | 246 | 8% | Cli/Main, Symbolize/Symbolizer |
| src/symbolize/symbolizer.rs | 967 | 84% | CApi/Program, Cache/ElfCache, Cli/Main, Normalize/Walk, Session/Kernel, Session/Resolve, Session/State, Session/Symbolize, Symbolize/Convert, Symbolize/Symbolizer, Zip/ApkCache, Zip/Archive |
| src/test_helper.rs | 57 | 0% | - |
| src/util.rs | 399 | 65% | Breakpad/Parser, Elf/Lazy, Kernel/System, Session/Symbolize, Util/Bytes, Util/Layout, Util/Reader, Util/Reorder, Util/Search, Zip/Archive |
| src/vdso.rs | 37 | 83% | Session/State |
| src/zip.rs | 227 | 55% | Util/Layout, Zip/Archive |
| capi/src/error.rs | 64 | 73% | CApi/Call, CApi/Codes, CApi/Host, CApi/Program, CApi/Whole |
| capi/src/helper.rs | 46 | 100% | CApi/Call |
| capi/src/inspect.rs | 220 | 77% | CApi/Abi, CApi/Call, CApi/Convert, CApi/Host, CApi/Input, CApi/InspProgram, CApi/Inspect, CApi/Whole |
| capi/src/lib.rs | 53 | 69% | CApi/Input |
| capi/src/normalize.rs | 487 | 72% | CApi/Abi, CApi/Call, CApi/Codes, CApi/Host, CApi/Input, CApi/Inspect, CApi/NormProgram, CApi/Output, CApi/Whole |
| capi/src/symbolize.rs | 744 | 86% | CApi/Abi, CApi/Call, CApi/Codes, CApi/Convert, CApi/Dispatch, CApi/Input, CApi/Program, CApi/Whole, Go/Bindings |
| capi/src/trace.rs | 73 | 64% | CApi/Trace |
| capi/src/util.rs | 164 | 76% | CApi/Convert, CApi/Input, CApi/Inspect |
| cli/src/args.rs | 104 | 86% | Cli/Args |
| cli/src/main.rs | 310 | 94% | Cli/Main, Cli/Trace |
| cli/src/trace.rs | 260 | 49% | Cli/Trace |

Code lines exclude tests, comments and blank lines; lines that are not cited are mostly imports, derives, accessors, `Debug` output and what is listed above.

## Axioms of each property theorem

* `Classical.choice`, `Quot.sound`, `propext` (701 theorems): `Util.C01_reorder`, `Util.C01_handler_sees_sorted_permutation`, `Util.C01_results_in_input_order`, `Util.C01_results_kept`, `Util.C01_pointwise_handler`, `Normalize.C02_query`, `Normalize.C02_enumerate`, `Normalize.C02_source_maps`, `Normalize.C02_source_query`, `Normalize.C02_source_cached`, `Normalize.C02_source_error`, `Normalize.C02_maps_file_partial`, `Normalize.C02_execute_only`, `Normalize.C02_normalize_partial`, `Normalize.C02_error`, `Normalize.C02_fails`, `Normalize.C02_vdso_gap`, `Normalize.C02_same_path_shares`, `Normalize.C02_consistent`, `Normalize.C02_consistent_map_files`, `Normalize.C02_walk`, `Normalize.C02_walk_query`, `Normalize.C02_walk_malformed`, `Normalize.C03_records`, `Elf.C04_lookup_sound`, `Elf.C04_lookup_largest`, `Elf.C04_lookup_error`, `Elf.C04_file_find_sym`, `Elf.C05_miss_condition`, `Elf.C05_complete_partial`, `Elf.C05_found_partial`, `Elf.C05_fails`, `Elf.C05_fails_witness`, `Elf.C05_nested_not_found`, `Util.C06_find_lowest_match_some`, `Util.C06_find_lowest_match_none`, `Util.C06_find_lowest_match_by_key`, `Util.C07_lower_bound_none`, `Util.C07_lower_bound_greatest`, `Util.C07_first_of_equals_partial`, `Util.C07_first_of_equals_fails`, `Util.C07_first_of_equals_witness`, `Elf.C08_find_addr_symtab`, `Elf.C08_find_addr_dynsym_partial`, `Elf.C08_dynsym_hidden`, `Elf.C08_find_addr_succeeds`, `Elf.C08_bad_name_fails_all`, `Elf.C09_virt_offset_found`, `Elf.C09_virt_offset_error`, `Elf.C09_find_file_offset`, `Elf.C09_symbol_file_offset`, `Elf.C09_symbol_offset`, `Elf.C09_roundtrip`, `Elf.C10_header`, `Elf.C10_section_headers`, `Elf.C10_program_headers`, `Elf.C10_section_data_raw`, `Elf.C10_section_data`, `Elf.C10_section_name`, `Elf.C10_find_section`, `Elf.C10_find_section_none`, `Elf.C10_symtab`, `Elf.C10_dynsym`, `Elf.C10_header_accepted`, `Elf.C10_no_panic_partial`, `Elf.C10_no_section_headers`, `Util.C11_read_cstr`, `Util.C11_align_up`, `Util.C11_split_bytes`, `Util.C12_uleb_roundtrip`, `Util.C12_uleb_value`, `Util.C12_sleb_roundtrip`, `Cache.C13_lookup_succeeds`, `Cache.C13_failed_lookup_changes_nothing`, `Cache.C13_pinned_is_returned`, `Cache.C13_pinned_stays`, `Cache.C13_entry_belongs_to_identity`, `Cache.C14_refcount`, `Cache.C14_cached_iff_referenced`, `Cache.C14_no_panic`, `Cache.C14_evict`, `Cache.C14_value_stable`, `Cache.ElfCache.C15_failed_cache_partial`, `Cache.ElfCache.C15_failed_cache_pins`, `Cache.ElfCache.C15_failed_cache_replaces`, `Maps.C16_parse_printed_partial`, `Maps.C16_trailing_blanks_lost`, `Maps.C16_permissions`, `Maps.C16_maps_file`, `Maps.C16_deleted`, `Maps.C16_not_deleted`, `Maps.C16_fields`, `Maps.C16_errors`, `Maps.C17_entries`, `Maps.C17_collect`, `Maps.C17_malformed`, `Maps.C17_collect_error`, `Maps.C17_empty_line_refused`, `Gsym.C18_entry_data`, `Gsym.C18_parse`, `Gsym.C18_lookup`, `Gsym.C18_lookup_complete_partial`, `Gsym.C18_below`, `Gsym.C18_gap`, `Gsym.C18_never_above`, `Gsym.C18_errors`, `Gsym.C18_overflow_panics`, `Gsym.C18_bad_width`, `Gsym.C18_unaligned_unknown`, `Gsym.C18_unaligned_misread`, `Gsym.C19_row`, `Gsym.C19_last_row_partial`, `Gsym.C19_trailing_operators`, `Gsym.C19_no_row`, `Gsym.C19_rows_ascending`, `Gsym.C19_bounds`, `Gsym.C19_header_truncated`, `Gsym.C19_pc_overflow_panics`, `Gsym.C19_line_overflow_panics`, `Gsym.C19_empty_range`, `Gsym.C19_trailing_operators_witness`, `Gsym.C20_inlined`, `Gsym.C20_invalid`, `Gsym.C20_nested`, `Gsym.C20_no_panic`, `Gsym.C20_truncated`, `Breakpad.C21_sound`, `Breakpad.C21_no_symbol_partial`, `Breakpad.C21_found_partial`, `Breakpad.C21_same_start`, `Breakpad.C21_overflow_panics`, `Breakpad.C21_same_start_differs`, `Breakpad.C22_sound`, `Breakpad.C22_no_location_partial`, `Breakpad.C22_disjoint`, `Breakpad.C22_overlap_missed`, `Breakpad.C23_chain_sound`, `Breakpad.C23_chain_complete_partial`, `Breakpad.C23_overlap_missed`, `Breakpad.C23_end_missed`, `Breakpad.C24_parse_sound`, `Breakpad.C24_parse_complete`, `Breakpad.C24_parse_rejects_partial`, `Breakpad.C24_parse_rejects`, `Breakpad.C24_parse_total_partial`, `Breakpad.C24_long_line_panics`, `Breakpad.C24_data_of_records`, `Breakpad.C24_module_takes_next_line`, `Breakpad.C24_empty_line_in_function`, `Zip.C25_entry`, `Zip.C25_entries_sound`, `Zip.C25_entries_complete`, `Zip.C25_no_panic`, `Zip.C26_opens`, `Zip.C26_rejects`, `Zip.C27_translate`, `Zip.C27_resolver`, `Zip.C27_no_member`, `Zip.C27_path`, `PerfMap.C28_line`, `PerfMap.C28_parse`, `PerfMap.C28_malformed`, `PerfMap.C28_lookup_sound`, `PerfMap.C28_lookup_complete_partial`, `PerfMap.C28_same_start`, `PerfMap.C28_overflow_panics`, `PerfMap.C28_overlap_missed`, `PerfMap.C28_path`, `Util.C29_constrain_partial`, `Kernel.C30_load`, `Kernel.C30_load_errors`, `Kernel.C30_lookup`, `Kernel.C30_unknown`, `Kernel.C30_alias`, `Kernel.C30_symbol`, `Kernel.C31_variables`, `Kernel.C31_name_lookup_partial`, `Kernel.C31_reports_others`, `Kernel.C31_reports_absent`, `Kernel.C31_order`, `Kernel.C32_line`, `Kernel.C32_load`, `Kernel.C32_load_succeeds`, `Kernel.C32_found`, `Kernel.C32_complete_partial`, `Kernel.C32_unknown`, `Kernel.C32_overlap_missed`, `Kernel.C32_overflow_panics`, `Kernel.Depmod.C33_sound`, `Kernel.Depmod.C33_complete`, `Kernel.Depmod.C33_panics_iff`, `Kernel.Depmod.C33_trie`, `Kernel.C34_kallsyms_only`, `Kernel.C34_module`, `Kernel.C34_module_only`, `Kernel.C34_module_missing`, `Kernel.C34_core`, `Kernel.C34_refused`, `Kernel.C34_compression`, `Kernel.C34_module_file`, `Kernel.C34_zst_not_decompressed`, `Kernel.C34_offset_wrong`, `Kernel.C34_module_offset_wrong`, `Kernel.C34_offset_partial`, `Kernel.C34_select_kallsyms`, `Kernel.C34_select_vmlinux`, `Kernel.C34_new`, `Kernel.C34_new_errors`, `Kernel.C34_new_has_source`, `Kernel.C35_descriptor`, `Kernel.C35_segment_partial`, `Kernel.C35_kcore_sound`, `Kernel.C35_kcore_partial`, `Kernel.C35_tail_ignored`, `Kernel.C35_no_panic`, `Kernel.C35_descriptor_size_panics`, `Kernel.C35_kcore_used`, `Kernel.C35_stext`, `Kernel.C35_errors`, `Kernel.C35_missing_kcore`, `Kernel.C35_kallsyms`, `Dwarf.C36_accepted`, `Dwarf.C36_kept`, `Dwarf.C36_ranges`, `Dwarf.C36_units_partial`, `Dwarf.C37_location_partial`, `Dwarf.C37_outside`, `Dwarf.C37_covered`, `Dwarf.C37_no_panic`, `Dwarf.C37_file_wrong`, `Dwarf.C37_huge_line_wrong`, `Dwarf.C37_empty_sequence_wrong`, `Dwarf.C37_file`, `Dwarf.C37_file_accepted`, `Dwarf.C38_accepted`, `Dwarf.C38_functions`, `Dwarf.C38_depths`, `Dwarf.C38_chain`, `Dwarf.C38_outside`, `Breakpad.C39_breakpad_inlined`, `Breakpad.C39_breakpad_unknown`, `Dwarf.C39_dwarf_partial`, `Dwarf.C39_dwarf_known`, `Dwarf.C39_dwarf_wrong`, `Gsym.C39_gsym_inlined`, `Gsym.C39_gsym_no_inlined`, `Gsym.C39_gsym_no_line`, `Gsym.C39_gsym_data_partial`, `Gsym.C39_gsym_data_total_partial`, `Gsym.C39_gsym_unknown`, `Dwarf.C40_candidates_partial`, `Dwarf.C40_candidates_unknown`, `Dwarf.C40_not_itself`, `Dwarf.C40_find`, `Dwarf.C40_find_unknown`, `Dwarf.C40_finite`, `Dwarf.C40_precedence_wrong`, `Dwarf.C40_relative_wrong`, `Elf.C41_debug_link`, `Elf.C41_debug_link_only`, `Elf.C41_read_debug_link_partial`, `Elf.C41_unreadable_panics`, `Elf.C41_debug_link_found`, `Elf.C41_debug_link_malformed`, `Elf.C41_no_debug_link`, `Symbolize.C42_refused_partial`, `Symbolize.C42_unopened_elf_wrong`, `Symbolize.C42_elf_file_offset`, `Symbolize.C42_elf_virt_offset`, `Symbolize.C42_apk`, `Symbolize.C42_breakpad`, `Symbolize.C42_kernel`, `Symbolize.C42_gsym`, `Symbolize.C43_process_batch_partial`, `Symbolize.C43_process_batch_error`, `Symbolize.C43_process_one_fails_wrong`, `Symbolize.C43_batch`, `Symbolize.C43_batch_error`, `Symbolize.C43_batch_ok`, `Symbolize.C44_vdso_only_vdso`, `Symbolize.C44_files_only_files`, `Symbolize.C44_unmapped`, `Symbolize.C44_overflow`, `Symbolize.C44_file`, `Symbolize.C44_archive`, `Symbolize.C44_component`, `Symbolize.C44_anonymous`, `Symbolize.C44_perf_map_only_anonymous`, `Symbolize.C44_dispatcher`, `Symbolize.C44_dispatcher_error`, `Symbolize.C44_no_listing`, `Symbolize.C44_dispatcher_shared_wrong`, `Dwarf.C45_dwarf`, `Dwarf.C45_dwarf_failure`, `Dwarf.C45_dwarf_variable`, `Dwarf.C45_dwarf_text_wrong`, `Elf.C45_for_each_elf_partial`, `Elf.C45_for_each_elf_errors`, `Elf.C45_break_ignored`, `Kernel.C45_kallsyms`, `CApi.C46_results_partial`, `CApi.C46_free`, `CApi.C46_reserved_wrong`, `CApi.C46_symbol_lists`, `CApi.C46_single_symbol`, `CApi.C47_text`, `CApi.C47_success`, `CApi.C47_unknown`, `CApi.C47_texts_distinct`, `CApi.C47_reason_text`, `CApi.C47_reason_unknown`, `Error.C48_made`, `Error.C48_display_chain`, `Error.C48_display_plain`, `Error.C48_debug`, `Elf.C49_notes_sound_partial`, `Elf.C49_notes_complete`, `Elf.C49_notes_none`, `Elf.C49_other_owner`, `Elf.C49_overflow_panics`, `Elf.C49_read_build_id_partial`, `Elf.C49_no_build_id`, `Elf.C49_build_id_in_memory`, `Elf.C49_misaligned_refused`, `Kernel.C50_accepts`, `Kernel.C50_round_trip`, `Kernel.C50_characters_partial`, `Kernel.C50_hex_accepted`, `Kernel.C50_sign_accepted`, `Kernel.C50_panics_iff`, `Kernel.C50_no_panic_partial`, `Kernel.C50_parse`, `Kernel.C50_parse_panics`, `Util.C52_from_radix_16`, `Util.C52_overflow_panics`, `Cache.ElfCache.C53_views_share_parser`, `Cache.ElfCache.C53_plain_never_panics`, `Cache.ElfCache.C53_parsed_once`, `Cache.ElfCache.C53_dwarf_never_panics_partial`, `Dwarf.C54_debug_section_partial`, `Dwarf.C54_debug_section_other`, `Dwarf.C54_dwo_section`, `Dwarf.C54_beyond_end`, `Elf.C54_relocations_64_partial`, `Elf.C54_relocations_32_partial`, `Elf.C54_accepted`, `Elf.C54_symbol_32_wrong`, `Util.C55_extension`, `Util.C55_without_extension`, `Util.C55_path_eq`, `Util.C55_parent`, `Util.C55_set_file_name`, `Util.C55_split_last`, `Util.C55_split_none`, `Util.C55_split_join`, `Breakpad.C56_name_lookup`, `Kernel.C57_lookup`, `Kernel.C57_remembered`, `Kernel.C57_repeat_partial`, `Kernel.C57_repeat_differs`, `Kernel.C58_records`, `Kernel.C58_errors`, `Kernel.C58_location`, `Kernel.C58_exact`, `Kernel.C58_no_location`, `Kernel.C58_symbol`, `Zip.C59_history_partial`, `Zip.C59_debug_syms_ignored_wrong`, `CApi.C60_refused_partial`, `CApi.C60_taken`, `CApi.C60_process`, `CApi.C60_process_first`, `CApi.C60_kernel`, `CApi.C60_elf`, `CApi.C60_inspect`, `CApi.C60_gsym_file`, `CApi.C60_gsym_data`, `CApi.C60_cache_elf`, `CApi.C60_cache_process`, `CApi.C60_normalizer`, `CApi.C60_normalize`, `CApi.C60_symbolizer`, `CApi.C61_history`, `CApi.C61_null`, `CApi.C61_invalid`, `CApi.C61_symbolize`, `CApi.C61_cache`, `CApi.C61_normalize`, `CApi.C61_inspect_partial`, `CApi.C61_build_id`, `CApi.C61_procmap`, `CApi.C61_new`, `CApi.C61_inspect_wrong`, `Dwarf.C62_accepted`, `Dwarf.C62_functions`, `Dwarf.C62_found`, `Dwarf.C62_answer`, `Dwarf.C62_complete`, `Dwarf.C62_outside`, `Dwarf.C62_nested_wrong`, `Dwarf.C62_file`, `Dwarf.C62_file_accepted`, `Dwarf.C63_reference`, `Dwarf.C63_reference_accepted`, `Dwarf.C63_unit`, `Dwarf.C63_no_unit`, `Dwarf.C63_name`, `Dwarf.C63_unique`, `Dwarf.C64_found`, `Dwarf.C64_found_iff`, `Dwarf.C64_basic`, `Dwarf.C64_code_info`, `Dwarf.C64_function_partial`, `Dwarf.C64_fallback`, `Dwarf.C64_accepted`, `Dwarf.C64_extent_wrong`, `Dwarf.C64_ranges_wrong`, `Dwarf.C64_total`, `Dwarf.C65_find_addr_partial`, `Dwarf.C65_variable`, `Dwarf.C65_accepted`, `Dwarf.C65_all_wrong`, `Dwarf.C66_linked`, `Dwarf.C66_own`, `Dwarf.C66_loaded`, `Dwarf.C66_checksum`, `Dwarf.C66_unreadable`, `Dwarf.C66_package`, `Dwarf.C66_succeeds`, `Dwarf.C66_module`, `Dwarf.C66_fallback_wrong`, `Dwarf.C66_fallback_sym_wrong`, `Inspect.C67_breakpad_lookup`, `Inspect.C67_breakpad_for_each`, `Inspect.C67_elf_lookup_partial`, `Inspect.C67_elf_for_each`, `Inspect.C67_debug_lookup_partial`, `Inspect.C67_debug_for_each_partial`, `Inspect.C67_module_wrong`, `Inspect.C67_debug_file_wrong`, `Symbolize.C68_count`, `Symbolize.C68_answer_partial`, `Symbolize.C68_single_partial`, `Symbolize.C68_present`, `Symbolize.C68_fresh_partial`, `Symbolize.C68_breakpad`, `Symbolize.C68_gsym`, `Symbolize.C68_plain`, `Symbolize.C68_module_wrong`, `Symbolize.C69_cached`, `Symbolize.C69_evict`, `Symbolize.C69_cached_maps`, `Symbolize.C69_evict_process`, `Symbolize.C69_evict_alias_wrong`, `Symbolize.C69_evict_dispatched`, `Symbolize.C69_register_twice`, `Symbolize.C70_kernel`, `Symbolize.C70_remembers`, `Symbolize.C70_debug_partial`, `Symbolize.C70_stays`, `Symbolize.C70_origin`, `Symbolize.C70_unchanged`, `Symbolize.C70_modules_wrong`, `Symbolize.C70_kaslr_wrong`, `Symbolize.C70_retry_wrong`, `Symbolize.C70_auto_reload_wrong`, `Kernel.C71_origin`, `Kernel.C71_location_partial`, `Kernel.C71_unloaded`, `Kernel.C71_no_calls`, `Kernel.C71_stays`, `Kernel.C71_shared_tag_wrong`, `Kernel.C71_reload_wrong`, `Kernel.C71_race_wrong`, `Symbolize.C72_elf_partial`, `Symbolize.C72_process_partial`, `Symbolize.C72_vdso_partial`, `Symbolize.C72_no_vdso`, `Symbolize.C72_archive_partial`, `Symbolize.C72_archive_dispatched`, `Symbolize.C72_archive_outside`, `Symbolize.C72_perf_map_partial`, `Symbolize.C72_total`, `Symbolize.C72_debug_partial`, `Symbolize.C72_caching_partial`, `Symbolize.C72_debug_file_partial`, `Symbolize.C72_debug_archive_partial`, `Symbolize.C72_debug_caching_partial`, `Symbolize.C73_offset`, `Symbolize.C73_index`, `Symbolize.C73_kernel_partial`, `Symbolize.C73_symbolizer_partial`, `Symbolize.C73_debug_partial`, `Symbolize.C73_debug_symbolizer_partial`, `CApi.C74_output`, `CApi.C74_output_total_partial`, `CApi.C74_nul_wrong`, `CApi.C74_free`, `CApi.C74_no_leak`, `Normalize.C75_answer`, `Normalize.C75_no_vdso`, `Normalize.C75_like_new`, `Normalize.C75_build_id_caching`, `Normalize.C75_kept_mappings`, `Normalize.C75_mappings_error`, `Normalize.C75_normalize_partial`, `Normalize.C75_swallowed_partial`, `Normalize.C75_archive_build_id_wrong`, `Normalize.C75_shape`, `RoundTrip.C76_address`, `RoundTrip.C76_member`, `RoundTrip.C76_histories_partial`, `Cli.C77_pid`, `Cli.C77_addr`, `Cli.C77_paste`, `Cli.C77_symbolize_several`, `Cli.C77_symbolize_one`, `Cli.C77_normalize_partial`, `Cli.C77_normalize_vdso_wrong`, `Cli.C77_lookup_partial`, `Cli.C77_dump_partial`, `Cli.C77_lookup_long_name_panics`, `Cli.C77_dump_long_name_panics`, `Cli.C77_columns`, `Cli.C77_build_id`, `CApi.Trace.C78_program`, `Cli.Trace.C78_cli_partial`, `Cli.Trace.C78_debug_wrong`, `Dwarf.C79_no_language`, `Dwarf.C79_debug_partial`, `Dwarf.C79_inlined_wrong`, `Dwarf.C79_split_wrong`, `Breakpad.C80_places_partial`, `Breakpad.C80_first_record`, `Breakpad.C80_unknown_record`, `Breakpad.C80_empty`, `Breakpad.C80_unfinished`, `Breakpad.C80_late_module`, `Breakpad.C80_line_wrong`, `Cli.C81_elf_partial`, `Cli.C81_process_partial`, `Cli.C81_elf_debug_partial`, `Cli.C81_kernel_partial`, `Cli.C81_no_file`, `Cli.C81_breakpad_partial`, `Cli.C81_gsym_partial`, `Symbolize.C82_breakpad_partial`, `Symbolize.C82_breakpad_total_partial`, `Symbolize.C82_breakpad_refused_partial`, `Symbolize.C82_gsym_partial`, `Symbolize.C82_gsym_total_partial`, `Symbolize.C82_gsym_above`, `Symbolize.C82_gsym_refused`, `Symbolize.C82_breakpad_history_partial`, `Symbolize.C82_gsym_history_partial`, `Cli.C83_cli_lookup_elf_partial`, `Cli.C83_cli_lookup_breakpad_partial`, `Cli.C83_cli_dump_elf_partial`, `Cli.C83_cli_dump_debug_partial`, `Cli.C83_cli_dump_breakpad_partial`, `Inspect.C83_elf_partial`, `Inspect.C83_elf_all_partial`, `Inspect.C83_breakpad`, `Inspect.C83_breakpad_all`, `Inspect.C83_debug_partial`, `Inspect.C83_debug_all_partial`, `Go.C84_symbolize_partial`, `Go.C84_panics`, `Go.C84_inlined_panics`, `Go.C84_empty_data_panics`, `Go.C84_new_partial`, `Go.C84_reason_partial`, `Go.C84_reason_wrong`, `Go.C84_nul_wrong`, `Go.C85_any`, `Go.C85_locked_partial`, `Go.C85_new`, `Go.C85_lost_wrong`, `Go.C85_stale_wrong`, `Go.C86_released_partial`, `Go.C86_any`, `Go.C86_new_any`, `Go.C86_new_partial`, `Go.C86_leak_wrong`, `Go.C86_empty_dirs_wrong`, `CApi.C87_objects`, `CApi.C87_results`, `CApi.C87_memory`, `CApi.C87_all_freed`, `CApi.C87_symbolize`, `CApi.C87_bad_request`, `CApi.C87_cache`, `CApi.C87_settings`, `CApi.C87_create`, `CApi.C87_bad_options`, `CApi.C87_free`, `CApi.C87_free_results`, `CApi.C87_elf_partial`, `CApi.C87_process_partial`, `CApi.C88_call`, `CApi.C88_no_call`, `CApi.C88_settings`, `CApi.C88_file_partial`, `CApi.C88_failed`, `CApi.C88_debug_syms`, `CApi.C88_usual`, `Go.C89_objects`, `Go.C89_memory`, `Go.C89_new`, `Go.C89_answers_partial`, `Go.C89_any`, `Go.C89_panics`, `Go.C89_close`, `Go.C89_close_twice_wrong`, `Go.C89_use_after_close_wrong`, `Go.C89_all_closed_partial`, `Go.C89_elf_partial`, `Go.C89_process_partial`, `Go.C89_other_closed_wrong`, `CApi.C90_objects`, `CApi.C90_results`, `CApi.C90_memory`, `CApi.C90_all_freed`, `CApi.C90_normalize`, `CApi.C90_bad_request`, `CApi.C90_create`, `CApi.C90_bad_options`, `CApi.C90_free`, `CApi.C90_free_results`, `CApi.C90_output_partial`, `CApi.C91_objects`, `CApi.C91_results`, `CApi.C91_memory`, `CApi.C91_all_freed`, `CApi.C91_inspect`, `CApi.C91_name_wrong`, `CApi.C91_bad_source`, `CApi.C91_create`, `CApi.C91_free`, `CApi.C91_free_results`, `CApi.C91_lookup_partial`, `CApi.C91_plain_lookup_partial`, `Elf.Lazy.C92_query`, `Elf.Lazy.C92_history`, `Elf.Lazy.C92_for_each`, `Elf.Lazy.C92_cache`, `Elf.Lazy.C92_kept`, `Dwarf.Lazy.C93_query`, `Dwarf.Lazy.C93_history`, `Dwarf.Lazy.C93_for_each`, `Dwarf.Lazy.C93_kept`, `CApi.Abi.C94_versions`, `CApi.C95_views`, `CApi.C95_objects`, `CApi.C95_results`, `CApi.C95_memory`, `CApi.C95_all_freed`, `CApi.C95_untouched`, `CApi.C95_calls`, `CApi.C96_round_trip_partial`, `Opened.C97_gsym`, `Opened.C97_gsym_history`, `Opened.C97_breakpad`, `Opened.C97_breakpad_history`, `Opened.C97_ksym`, `Opened.C97_ksym_history`, `Opened.C97_visit_plain`, `TwoWay.C98_elf_files_partial`, `TwoWay.C98_elf_files_back_partial`, `TwoWay.C98_breakpad_files`, `TwoWay.C98_elf_by_name_partial`, `TwoWay.C98_elf_by_address_partial`, `TwoWay.C98_breakpad_by_name`, `TwoWay.C98_breakpad_by_address`, `TwoWay.C98_ksym_by_name`, `TwoWay.C98_ksym_by_address`, `TwoWay.C98_elf_wrong`, `TwoWay.C98_elf_hidden`, `Listing.C99_elf_partial`, `Listing.C99_breakpad`, `Listing.C99_ksym_partial`, `Listing.C99_elf_wrong`, `Listing.C99_inspector_elf_partial`, `Listing.C99_inspector_breakpad`, `Places.C100_offsets`, `Places.C100_process`, `Places.C100_archive`, `Places.C100_histories_partial`, `Extent.C101_inside_partial`, `Extent.C101_placed`, `Extent.C101_histories_partial`, `Extent.C101_debug_wrong`, `Extent.C101_kernel_wrong`, `Options.C102_kernel_partial`, `Options.C102_bpf_wrong`, `Options.C102_demangle`, `Options.C102_source_partial`, `Options.C102_histories_partial`, `Options.C102_source_histories_partial`, `Options.C102_gsym_wrong`, `Symbolize.C102_process_batch_partial`

* `Quot.sound`, `propext` (67 theorems): `Normalize.C02_query_all_above_fails`, `Normalize.C02_unsorted_refused`, `Normalize.C02_unsorted_invalid_input`, `Elf.C09_symbol_no_file_offset`, `Elf.C10_tables_accepted`, `Elf.C10_section_data_accepted`, `Elf.C10_file_backend_panics`, `Elf.C10_wrong_compressed_size_panics`, `Elf.C10_section_data_no_other_panic`, `Util.C11_read_slice`, `Util.C11_read_array`, `Util.C11_peek_array`, `Util.C11_ensure`, `Util.C11_align`, `Util.C11_read_uint`, `Util.C11_read_pod_slice_ref`, `Util.C11_read_pod_slice_ref_complete`, `Util.C12_uleb_truncated`, `Util.C12_uleb_overlong_panics`, `Util.C12_sleb_malformed`, `Cache.C13_returns_present_identity`, `Cache.ElfCache.C15_failed_cache_unknown_path`, `Zip.C25_entry_error`, `Zip.C26_comment`, `Util.C29_nested`, `Util.C29_reversed`, `Util.C29_overflow_panics`, `Kernel.Depmod.C33_validate`, `Dwarf.C36_failure`, `Dwarf.C36_max_wrong`, `Dwarf.C36_overflow_wrong`, `Dwarf.C37_accepted`, `Dwarf.C38_bad_entry`, `Symbolize.C44_looked`, `Symbolize.C44_looked_at`, `Breakpad.C45_breakpad`, `CApi.C46_otherwise`, `CApi.C46_string`, `CApi.C46_symbol_lists_otherwise`, `Elf.C49_unreadable_panics`, `Elf.C49_build_id_found`, `Kernel.C50_display`, `Cache.C51_get_or_insert`, `Cache.C51_remove`, `Cache.C51_retain`, `Cache.C51_value_is_stable`, `Cache.ElfCache.C53_self_reference_panics`, `Util.C55_join`, `Util.C55_middle`, `CApi.C60_missing`, `CApi.C60_present`, `CApi.C60_reserved_wrong`, `Dwarf.C63_dangling`, `Dwarf.C64_language`, `Kernel.C71_ends`, `CApi.Trace.C78_lines`, `CApi.Trace.C78_division`, `Dwarf.C79_names_partial`, `Symbolize.C79_scheme`, `CApi.Abi.C94_layout`, `CApi.Abi.C94_elements`, `CApi.Abi.C94_agree_variant`, `CApi.Abi.C94_usable`, `CApi.Abi.C94_stable`, `CApi.Abi.C94_results_aligned`, `CApi.Abi.C94_inspect_aligned`, `CApi.Abi.C94_meta_aligned`

* no axioms (23 theorems): `Normalize.C02_no_mapping`, `Normalize.C02_walk_malformed_first`, `Util.C29_empty_not_refused`, `Kernel.C35_once`, `Kernel.C35_once_failed`, `CApi.C47_header`, `CApi.C47_range`, `CApi.C47_distinct`, `CApi.C47_reason_header`, `CApi.C47_reason_distinct`, `Error.C48_every_error`, `Error.C48_kind`, `Error.C48_root_kind`, `Error.C48_result`, `Kernel.C57_known`, `Kernel.C57_error`, `CApi.C60_layout`, `CApi.C60_array`, `CApi.Trace.C78_determined`, `CApi.Abi.C94_inputs_dense`, `CApi.Abi.C94_numbers`, `CApi.Abi.C94_offsets`, `CApi.Abi.C94_input_offsets`

* `propext` (14 theorems): `Elf.C09_virt_offset_none`, `Elf.C09_before_section`, `Elf.C10_missing_section`, `Util.C11_split_once_eq`, `Cache.ElfCache.C15_process`, `Gsym.C19_invalid_data`, `Util.C29_map`, `Cache.C51_get_or_try_insert`, `Util.C52_none_only_nondigit`, `Elf.C54_other_files`, `Elf.C54_no_panic`, `CApi.C74_free_null`, `CApi.Abi.C94_agree`, `CApi.Abi.C94_dense64`

