{
 "claims": [
  {
   "property": "C01",
   "status": "proved",
   "theorems": [
    "Verif.Alloc.C01_placed_ranges_disjoint",
    "Verif.Assign.C01_sections_disjoint",
    "Verif.Assign.C01_two_sections_disjoint"
   ],
   "note": "One pool, any history; and the whole placement of all sections. Precondition: request numbers do not overflow 32 bits."
  },
  {
   "property": "C02",
   "status": "proved",
   "theorems": [
    "Verif.Alloc.C02_placed_ranges_within_pool",
    "Verif.Assign.C02_sections_within_group_pool",
    "Verif.Alloc.C02_wrapping_request_escapes_pool"
   ],
   "note": "False for fixed sections whose end wraps 2^32 (witness proved); proved otherwise."
  },
  {
   "property": "C03",
   "status": "proved",
   "theorems": [
    "Verif.Assign.C03_fixed_address_kept",
    "Verif.Alloc.C03_fixed_address_in_pool",
    "Verif.Assign.C03_bss_data_section_is_moved"
   ],
   "note": "Proved for ordinary groups (the stated quantifier); negation proved for bss groups with the data flag."
  },
  {
   "property": "C04",
   "status": "proved",
   "theorems": [
    "Verif.Alloc.C04_alignment_honoured",
    "Verif.Assign.C04_sections_aligned"
   ],
   "note": "Sections without fixed address."
  },
  {
   "property": "C05",
   "status": "partial",
   "theorems": [
    "Verif.Alloc.C05_page_not_crossed_partial",
    "Verif.Alloc.C05_page_aligned_not_crossed_partial",
    "Verif.Assign.C05_sections_paged_partial",
    "Verif.Alloc.C05_aligned_paged_section_straddles_page"
   ],
   "note": "Holds without ALIGN and if ALIGN is a multiple of PAGE; with other combinations of ALIGN and PAGE the code violates it (witness proved)."
  },
  {
   "property": "C06",
   "status": "partial",
   "theorems": [
    "Verif.Alloc.C06_refused_only_without_room_partial",
    "Verif.Assign.C06_link_fails_only_without_room_partial",
    "Verif.Alloc.C06_paged_first_chunk_partial",
    "Verif.Alloc.C06_paged_request_refused_although_room",
    "Verif.Alloc.C06_empty_section_fragments_memory"
   ],
   "note": "Holds for unpaged requests if no empty section was placed; the code violates it for paged requests and after empty sections (witnesses proved)."
  },
  {
   "property": "C07",
   "status": "proved",
   "theorems": [
    "Verif.Alloc.C07_memory_conserved"
   ],
   "note": "Any history in one pool."
  },
  {
   "property": "C08",
   "status": "proved",
   "theorems": [
    "Verif.Assign.C08_image_offset",
    "Verif.Assign.C08_image_ranges_disjoint"
   ],
   "note": "Image offsets assumed below 2^31."
  },
  {
   "property": "C09",
   "status": "proved",
   "theorems": [
    "Verif.Assign.C09_every_used_section_placed",
    "Verif.Assign.C09_word_address"
   ],
   "note": "All 55 passes."
  },
  {
   "property": "C10",
   "status": "partial",
   "theorems": [
    "Verif.Smart.C10_keeps_reachable_partial",
    "Verif.Smart.C10_terminates",
    "Verif.Smart.C10_fails_only_without_definition",
    "Verif.Smart.C10_everything_without_entry",
    "Verif.Smart.C10_constant_keeps_unrelated_section",
    "Verif.Smart.C10_imported_constant_refused"
   ],
   "note": "Partial: the kept set is characterised under the hypotheses stated in the theorem. Negations: an imported constant can keep an unrelated section, or be refused."
  },
  {
   "property": "C11",
   "status": "partial",
   "theorems": [
    "Verif.Resolve.C11_resolved_values",
    "Verif.Resolve.C11_local_import_same_file_partial",
    "Verif.Resolve.C11_reported_iff_missing",
    "Verif.Resolve.C11_kept_sections_resolved",
    "Verif.Resolve.C11_used_import_resolved",
    "Verif.Resolve.C11_fails_only_when_missing",
    "Verif.Resolve.C11_order_irrelevant",
    "Verif.Resolve.C11_layout_symbol_taken_for_local",
    "Verif.Resolve.C11_layout_symbol_refused_early"
   ],
   "note": "Every sequence of requests. Partial because the local import clause is false of the code: a local import of the first object file can get a symbol of the memory layout (witness proved); the theorem says what holds. Linker symbols are evaluated by a parameter."
  },
  {
   "property": "C12",
   "status": "proved",
   "theorems": [
    "Verif.Expr.C12_link_value_is_value",
    "Verif.Expr.C12_value_is_computed",
    "Verif.Expr.C12_relocatable_value",
    "Verif.Expr.C12_difference_drops_addend",
    "Verif.Expr.C12_difference_of_unknown_symbols"
   ],
   "note": "All expression trees. INT32_MIN % -1 traps in C. For relocatable output two differences are computed wrongly (witnesses proved)."
  },
  {
   "property": "C13",
   "status": "proved",
   "theorems": [
    "Verif.Patch.C13_other_bytes_unchanged",
    "Verif.Patch.C13_patches_stored",
    "Verif.Patch.C13_values_stored",
    "Verif.Patch.C13_fitting_values_accepted",
    "Verif.Patch.C13_relocation",
    "Verif.Patch.C13_relocations",
    "Verif.Patch.C13_bank_patch_silently_skipped",
    "Verif.Patch.C13_patch_offset_unchecked"
   ],
   "note": "All patches of a section. Negations: BANK of an unbanked symbol is skipped silently, offsets are not checked."
  },
  {
   "property": "C14",
   "status": "proved",
   "theorems": [
    "Verif.Expr.C14_value_known",
    "Verif.Expr.C14_value_linked",
    "Verif.Expr.C14_value_linked_sub",
    "Verif.Expr.C14_value_is_computed",
    "Verif.Expr.C14_pc_relative_forgotten",
    "Verif.Expr.C14_unknown_divisor_refused"
   ],
   "note": "Every source expression used the way instruction parsers use PC-relative operands (PcOk); soundness modulo 2^32, completeness for expressions whose intermediate results fit. Negations: a PC-relative value in parentheses can be forgotten, divisions by unknown operands can be refused."
  },
  {
   "property": "C15",
   "status": "proved",
   "theorems": [
    "Verif.Object.C15_object_round_trip"
   ],
   "note": "Format level: what the writer emits for groups, sections, symbols, line mappings, data and patches is read back exactly."
  },
  {
   "property": "C16",
   "status": "proved",
   "theorems": [
    "Verif.Object.C16_old_versions"
   ],
   "note": "Versions 0 to 5 against a specification encoder of each version."
  },
  {
   "property": "C17",
   "status": "proved",
   "theorems": [
    "Verif.Library.C17_library_round_trip",
    "Verif.Library.C17_write_injective",
    "Verif.Library.C17_reads_only_libraries"
   ],
   "note": ""
  },
  {
   "property": "C18",
   "status": "proved",
   "theorems": [
    "Verif.Library.C18_module_name",
    "Verif.Library.C18_sessions_refine_map",
    "Verif.Library.C18_extract",
    "Verif.Library.C18_add_total",
    "Verif.Library.C18_add_then_extract",
    "Verif.Library.C18_delete_ub_only_oldest",
    "Verif.Library.C18_delete_oldest_module_ub"
   ],
   "note": "Any history of commands refines a map; deleting the last list element is undefined behaviour in the code (witness proved)."
  },
  {
   "property": "C19",
   "status": "proved",
   "theorems": [
    "Verif.Object.C19_library_like_files",
    "Verif.Object.C19_concatenated_objects_break_library",
    "Verif.Object.C19_empty_file_breaks_library"
   ],
   "note": "For modules that are single object files; negations proved for modules made of several objects and for empty ones."
  },
  {
   "property": "C20",
   "status": "proved",
   "theorems": [
    "Verif.Image.C20_section_at_offset",
    "Verif.Image.C20_rest_is_filler",
    "Verif.Image.C20_size_without_padding",
    "Verif.Image.C20_padded_size",
    "Verif.Image.C20_power_of_two_size",
    "Verif.Image.C20_padding_only_appends",
    "Verif.Image.C20_always_written",
    "Verif.Image.C20_full_image_padded",
    "Verif.Image.C20_power_of_two_doubled"
   ],
   "note": "Sections in any order whose image ranges do not overlap and end below 2^32; all images below 2^31 bytes. Negations: an image that has the right size already gets a further block, or is doubled."
  },
  {
   "property": "C21",
   "status": "proved",
   "theorems": [
    "Verif.Image.C21_checksums_verify",
    "Verif.Image.C21_size_kept",
    "Verif.Image.C21_rom_size",
    "Verif.Image.C21_cartridge_type",
    "Verif.Image.C21_logo",
    "Verif.Image.C21_other_bytes",
    "Verif.Image.C21_cartridge"
   ],
   "note": "The checksums verify for every file; the other header fields for files of at least 0x150 bytes."
  },
  {
   "property": "C22",
   "status": "proved",
   "theorems": [
    "Verif.Image.C22_mega_drive",
    "Verif.Image.C22_mega_drive_image",
    "Verif.Image.C22_master_system",
    "Verif.Image.C22_kernal",
    "Verif.Image.C22_kernal_image",
    "Verif.Image.C22_short_mega_drive_image",
    "Verif.Image.C22_master_system_image_never_written",
    "Verif.Image.C22_short_master_system_image"
   ],
   "note": "Mega Drive: files of at least 0x200 bytes and even length; Master System: files that contain the header; kernal: every file. Negations: short Mega Drive images make the linker loop for about 2^63 rounds, the Master System writer fails or works with a closed file, and counts missing bytes as 65535."
  },
  {
   "property": "C23",
   "status": "proved",
   "theorems": [
    "Verif.Container.C23_start_refused",
    "Verif.Container.C23_coco",
    "Verif.Container.C23_coco_written",
    "Verif.Container.C23_coco_start_too_high",
    "Verif.Container.C23_coco_truncates",
    "Verif.Container.C23_pgz",
    "Verif.Container.C23_pgz_written",
    "Verif.Container.C23_pgz_start_at_end",
    "Verif.Container.C23_pgz_empty_section",
    "Verif.Container.Amiga.C23_amiga",
    "Verif.Container.Amiga.C23_amiga_relocations",
    "Verif.Container.Amiga.C23_amiga_written",
    "Verif.Container.Amiga.C23_amiga_entry",
    "Verif.Container.Amiga.C23_amiga_entry_refused",
    "Verif.Container.Amiga.C23_amiga_no_hunks",
    "Verif.Container.Hc800.C23_hc800",
    "Verif.Container.Hc800.C23_hc800_unused_written",
    "Verif.Container.Hc800.C23_hc800_unused_assertion"
   ],
   "note": "Each writer against an independent loader: CoCo binaries, PGZ, Amiga executables with relocations, HC800 executables. Conditions (addresses that fit, non-empty sections for PGZ) are in the statements; what happens without them is proved by the negations."
  },
  {
   "property": "C24",
   "status": "proved",
   "theorems": [
    "Verif.Sort.C24_sorted",
    "Verif.Sort.C24_kept_in_address_order",
    "Verif.Sort.C24_result_exists",
    "Verif.Sort.C24_no_sections_ub",
    "Verif.Sort.C24_compare_overflows"
   ],
   "note": "Every result qsort may return (relational contract). Banks and addresses from -1 to 2^31 - 2; beyond that the comparison overflows, and an empty section list is undefined behaviour (witnesses proved)."
  },
  {
   "property": "C25",
   "status": "partial",
   "theorems": [
    "Verif.Layout.C25_expression",
    "Verif.Layout.C25_ordinary_value",
    "Verif.Layout.C25_modulo",
    "Verif.Layout.C25_file",
    "Verif.Layout.C25_pools_of_groups",
    "Verif.Layout.C25_formats_required",
    "Verif.Layout.C25_expression_terminates",
    "Verif.Layout.C25_negative_bank",
    "Verif.Layout.C25_negative_bank_refused",
    "Verif.Layout.C25_documented_file",
    "Verif.Layout.C25_documented_pools",
    "Verif.Layout.C25_binary_refused",
    "Verif.Layout.C25_missing_operand",
    "Verif.Layout.C25_signed_division",
    "Verif.Layout.C25_stale_index",
    "Verif.Layout.C25_largest_range",
    "Verif.Layout.C25_property_plus",
    "Verif.Layout.C25_plus_property",
    "Verif.Layout.C25_empty_symbol",
    "Verif.Layout.C25_skipped_format"
   ],
   "note": "Every expression with decimal and hexadecimal numbers and @, with any spacing; every file of the five directives. Partial because binary numbers are refused, negative banks need parentheses (so the documented examples are refused or misunderstood), properties of groups cannot be used in sums and division is signed: witnesses proved."
  },
  {
   "property": "C26",
   "status": "proved",
   "theorems": [
    "Verif.Expr.C26_optimize_preserves",
    "Verif.Expr.C26_no_parens",
    "Verif.Expr.C26_postfix",
    "Verif.Expr.C26_idempotent",
    "Verif.Expr.C26_parens_written_twice"
   ],
   "note": ""
  },
  {
   "property": "C27",
   "status": "proved",
   "theorems": [
    "Verif.Symbol.C27_history",
    "Verif.Symbol.C27_single",
    "Verif.Symbol.C27_refused",
    "Verif.Symbol.C27_defined",
    "Verif.Symbol.C27_variable",
    "Verif.Symbol.C27_error",
    "Verif.Symbol.C27_builtin_constant",
    "Verif.Symbol.C27_builtin_export",
    "Verif.Symbol.C27_error_counter",
    "Verif.Symbol.C27_export_variable",
    "Verif.Symbol.C27_group_after_use"
   ],
   "note": "Every history of operations on the symbol table refines a dictionary of paths. Negations: mistakes about built-in names, the counter after a refused reservation, exporting variables, groups that were mentioned."
  },
  {
   "property": "C28",
   "status": "proved",
   "theorems": [
    "Verif.Symbol.C28_private",
    "Verif.Symbol.C28_own",
    "Verif.Symbol.C28_qualified",
    "Verif.Symbol.C28_scope_not_by_label",
    "Verif.Symbol.C28_scope_counter",
    "Verif.Symbol.C28_purge_scope"
   ],
   "note": "Every history. Negations: scopes are not begun by labels only; the current scope can be purged."
  },
  {
   "property": "C29",
   "status": "proved",
   "theorems": [
    "Verif.Section.C29_history",
    "Verif.Section.C29_mistakes",
    "Verif.Section.C29_others",
    "Verif.Section.C29_earlier",
    "Verif.Section.C29_replace",
    "Verif.Section.C29_data",
    "Verif.Section.C29_space",
    "Verif.Section.C29_cnop",
    "Verif.Section.C29_section",
    "Verif.Section.C29_data_example",
    "Verif.Section.C29_reserve_word",
    "Verif.Section.C29_empty_string",
    "Verif.Section.C29_double_halves",
    "Verif.Section.C29_double",
    "Verif.Section.C29_space_wraps",
    "Verif.Section.C29_cnop_zero",
    "Verif.Section.C29_odd_file",
    "Verif.Section.C29_section_comma",
    "Verif.Section.C29_section_bank",
    "Verif.Section.C29_section_top",
    "Verif.Section.C29_section_align_zero",
    "Verif.Section.C29_section_name",
    "Verif.Section.C29_section_org"
   ],
   "note": "Every history of section, data, space, alignment, binary and patch operations refines appending to byte lists; mistakes are reported. Negations: DW without operand, empty strings, doubles on big endian machines, DSL wrapping around, CNOP 0,0, odd files with 16 bit words, several forms of SECTION."
  },
  {
   "property": "C30",
   "status": "partial",
   "theorems": [
    "Verif.BinObj.C30_layout_partial",
    "Verif.BinObj.C30_refused",
    "Verif.BinObj.C30_layout_or_stuck",
    "Verif.BinObj.C30_apart",
    "Verif.BinObj.C30_value",
    "Verif.BinObj.C30_value_known",
    "Verif.BinObj.C30_image_partial",
    "Verif.BinObj.C30_imported",
    "Verif.BinObj.C30_needs_org",
    "Verif.BinObj.C30_branch_lost",
    "Verif.BinObj.C30_distance_unknown",
    "Verif.BinObj.C30_page_misaligned",
    "Verif.BinObj.C30_wraps",
    "Verif.BinObj.C30_divides_by_zero",
    "Verif.BinObj.C30_bank_address",
    "Verif.BinObj.C30_bank_twice",
    "Verif.BinObj.C30_bank_lost"
   ],
   "note": "Every list of sections whose alignments divide their pages and that end below 2^32: positions, addresses, contents of the file, values of the patches. Partial because of these conditions, and because distances between sections are written as 0 (C30_branch_lost)."
  },
  {
   "property": "C31",
   "status": "partial",
   "theorems": [
    "Verif.Lexer.C31_number_partial",
    "Verif.Lexer.C31_fixed_partial",
    "Verif.Lexer.C31_fraction_undefined",
    "Verif.Lexer.C31_float",
    "Verif.Lexer.C31_local_label",
    "Verif.Lexer.C31_long_undefined",
    "Verif.Lexer.C31_gameboy_loses",
    "Verif.Lexer.C31_ten_decimals",
    "Verif.Lexer.C31_no_digits",
    "Verif.Lexer.C31_hex_point"
   ],
   "note": "Every literal of at most 257 characters in every text. Partial because longer ones overflow, fractions with ten or more decimals are wrong or divide by zero, and Game Boy literals lose the character behind them."
  },
  {
   "property": "C32",
   "status": "partial",
   "theorems": [
    "Verif.Lexer.C32_substitution_partial",
    "Verif.Lexer.C32_shift",
    "Verif.Lexer.C32_empty_argument",
    "Verif.Lexer.C32_missing_argument",
    "Verif.Lexer.C32_nested",
    "Verif.Lexer.C32_long_argument"
   ],
   "note": "Every macro body and every list of arguments of at most 256 characters without backslashes, if no empty argument is directly followed by a backslash. Partial because the property is false without these conditions: witnesses proved."
  },
  {
   "property": "C33",
   "status": "partial",
   "theorems": [
    "Verif.Lexer.C33_transparent_partial",
    "Verif.Lexer.C33_unexpanded",
    "Verif.Lexer.C33_copy",
    "Verif.Lexer.C33_skip",
    "Verif.Lexer.C33_short_copy",
    "Verif.Lexer.C33_backslash",
    "Verif.Lexer.C33_overflow",
    "Verif.Lexer.C33_zero"
   ],
   "note": "Every sequence of reading and putting back that fits the stack. Partial because a backslash that is put back before a digit is expanded, the stack is not checked and zeros on the stack are skipped: witnesses proved."
  },
  {
   "property": "C34",
   "status": "partial",
   "theorems": [
    "Verif.Lexer.C34_true_branch_partial",
    "Verif.Lexer.C34_endc_partial",
    "Verif.Lexer.C34_endr_partial",
    "Verif.Lexer.C34_missing_partial",
    "Verif.Lexer.C34_macro_partial",
    "Verif.Lexer.C34_macro_missing_partial",
    "Verif.Lexer.C34_stale_endc",
    "Verif.Lexer.C34_endless",
    "Verif.Lexer.C34_name_prefix",
    "Verif.Lexer.C34_comment_at_label",
    "Verif.Lexer.C34_macro_comment"
   ],
   "note": "Skipping text ends behind the matching directive, for every text made of well-formed lines and complete nested blocks, for expanded text and for macro bodies; a missing directive is noticed when the last directive of the text ends no block. Refuted with witnesses: the ENDC of a nested condition at the end of the text is taken for the outer one, an unclosed nested condition makes the code call itself without end, names that begin with a reserved word and a digit or underscore are taken for the directive, and so are the first words of comments directly behind a label and, in macro bodies, of comments behind an empty line or a label."
  },
  {
   "property": "C35",
   "status": "partial",
   "theorems": [
    "Verif.Text.C35_range_partial",
    "Verif.Text.C35_sequence_partial",
    "Verif.Text.C35_never_zero",
    "Verif.Text.C35_permutation",
    "Verif.Text.C35_period",
    "Verif.Text.C35_distinct",
    "Verif.Text.C35_zero_seed",
    "Verif.Text.C35_largest_upper",
    "Verif.Text.C35_wide_range",
    "Verif.Text.C35_empty_range",
    "Verif.Text.C35_swapped"
   ],
   "note": "Every seed and every range that fits. Partial because the documented range is not kept for an upper bound of 2^31-1, ranges wider than 2^31-1 and empty ranges (undefined behaviour, witnesses proved); seed 0 gives zeros for ever. The full period of 2^32-1 is proved."
  },
  {
   "property": "C36",
   "status": "proved",
   "theorems": [
    "Verif.Symbol.C36_fields",
    "Verif.Symbol.C36_structure",
    "Verif.Symbol.C36_disjoint",
    "Verif.Symbol.C36_counter_taken",
    "Verif.Symbol.C36_counter_assigned",
    "Verif.Symbol.C36_field_twice",
    "Verif.Symbol.C36_sizeof",
    "Verif.Symbol.C36_purge_counter"
   ],
   "note": "Every sequence of reservations with different names whose sum is a 32 bit number, after every history. Negations: the counter is an ordinary symbol; fields may be defined twice; SIZEOF does not exist."
  },
  {
   "property": "C37",
   "status": "partial",
   "theorems": [
    "Verif.Parse.C37_reads",
    "Verif.Parse.C37_only",
    "Verif.Parse.C37_without_strings",
    "Verif.Parse.C37_characters",
    "Verif.Parse.C37_strings_compared",
    "Verif.Parse.C37_print",
    "Verif.Parse.C37_documented_partial",
    "Verif.Parse.C37_build",
    "Verif.Parse.C37_shift",
    "Verif.Parse.C37_not",
    "Verif.Parse.C37_characters_compared",
    "Verif.Parse.C37_plus_string",
    "Verif.Parse.C37_member_label"
   ],
   "note": "With the precedence of the code, every expression that has the parentheses it needs is read as it is written, and without strings nothing else is accepted; any expression printed with the necessary parentheses is parsed to the same value; the result is the tree of C14. With the documented precedence this is proved for expressions outside the two kinds in which code and documentation differ (partial), which are refuted with witnesses. Not modelled: code in braces, DEF, BANK, RAND, processor functions, string member functions."
  },
  {
   "property": "C38",
   "status": "proved",
   "theorems": [
    "Verif.Expr.C38_pc_relative"
   ],
   "note": "All three ways of resolving give target + adjustment - place, modulo 2^32, when expr_PcRelative is called with the program counter of the operand."
  },
  {
   "property": "C39",
   "status": "proved",
   "theorems": [
    "Verif.Expr.C39_label_difference",
    "Verif.Expr.C39_later_difference"
   ],
   "note": ""
  },
  {
   "property": "C40",
   "status": "partial",
   "theorems": [
    "Verif.Text.C40_slice_partial",
    "Verif.Text.C40_characters_partial",
    "Verif.Text.C40_from_end",
    "Verif.Text.C40_large_count",
    "Verif.Text.C40_undefined"
   ],
   "note": "Every string, start and count whose sum is an int32_t. Partial because larger sums overflow (C40_large_count, C40_undefined)."
  },
  {
   "property": "C41",
   "status": "proved",
   "theorems": [
    "Verif.Section.C41_lines"
   ],
   "note": "Every history: the line of a byte is the one of the directive that wrote it."
  },
  {
   "property": "C42",
   "status": "proved",
   "theorems": [
    "Verif.Container.C42_prg",
    "Verif.Container.C42_mega65",
    "Verif.Container.C42_start_refused",
    "Verif.Container.C42_header_address"
   ],
   "note": "Against an independent loader and reader of BASIC lines. Negation: header addresses that are not of the form xx01, which a layout file may ask for, break the BASIC line."
  },
  {
   "property": "C43",
   "status": "proved",
   "theorems": [
    "Verif.Container.C43_kup",
    "Verif.Container.C43_written",
    "Verif.Container.C43_full_slot_padded"
   ],
   "note": "Every program in address order. Negation: with padding, a program that fills its slots exactly gets a further slot."
  },
  {
   "property": "C44",
   "status": "partial",
   "theorems": [
    "Verif.Config.C44_addresses_partial",
    "Verif.Config.C44_addresses_cbm",
    "Verif.Config.C44_images_partial",
    "Verif.Config.C44_banks_partial",
    "Verif.Config.C44_wellformed",
    "Verif.Config.C44_sections_apart",
    "Verif.Config.C44_hc800_sections_apart",
    "Verif.Config.C44_image_contents",
    "Verif.Config.C44_commodore_in_memory",
    "Verif.Config.C44_mega65_in_memory",
    "Verif.Config.C44_commodore_undefined",
    "Verif.Config.C44_medium_harvard_refused",
    "Verif.Config.C44_c128fh_refused",
    "Verif.Config.C44_hc800_home_refused",
    "Verif.Config.C44_f256_overlap",
    "Verif.Config.C44_c128f_overlap",
    "Verif.Config.C44_hc8m_overlap",
    "Verif.Config.C44_hc8s_image_overlap",
    "Verif.Config.C44_mega_drive_image_overlap",
    "Verif.Config.C44_amiga_overlap"
   ],
   "note": "Tables over all machines by complete enumeration, then for every list of sections by the placement and image theorems. Partial because it is false of some machines: for those the counterexamples are proved (F256 zero page, C128 function ROMs, HC800 medium, images of the small HC800 maps, Amiga as plain binary), and the set up of the Commodore machines is undefined behaviour."
  },
  {
   "property": "C45",
   "status": "proved",
   "theorems": [
    "Verif.Config.C45_accepted",
    "Verif.Config.C45_values",
    "Verif.Config.C45_format",
    "Verif.Config.C45_format_config",
    "Verif.Config.C45_checked",
    "Verif.Config.C45_format_forgotten",
    "Verif.Config.C45_two_roots",
    "Verif.Config.C45_layout_name_lowered",
    "Verif.Config.C45_documented"
   ],
   "note": "Every sequence of options; what a layout file sets up is a parameter. Negations: -t forgets an earlier -f, two -s options disagree, layout file names are lower-cased, eight documented machine names are unknown."
  },
  {
   "property": "C46",
   "status": "partial",
   "theorems": [
    "Verif.Config.C46_documented_areas_partial",
    "Verif.Config.C46_documented_basic",
    "Verif.Config.C46_bank_numbers",
    "Verif.Config.C46_disagreements"
   ],
   "note": "Complete enumeration of the documented tables. Partial because the lines in C46_disagreements are false of the code."
  },
  {
   "property": "C47",
   "status": "proved",
   "theorems": [
    "Verif.Section.C47_label",
    "Verif.Section.C47_inside",
    "Verif.Section.C47_documented",
    "Verif.Section.C47_org_banked"
   ],
   "note": "Every history. Negation: ORG has no effect on labels in sections with a bank."
  },
  {
   "property": "C48",
   "status": "partial",
   "theorems": [
    "Verif.Text.C48_decimal_partial",
    "Verif.Text.C48_hex_default",
    "Verif.Text.C48_hex_partial",
    "Verif.Text.C48_fixed_partial",
    "Verif.Text.C48_printf_partial",
    "Verif.Text.C48_printv",
    "Verif.Text.C48_character",
    "Verif.Text.C48_hex_documented",
    "Verif.Text.C48_hex_overlap",
    "Verif.Text.C48_hex_wide",
    "Verif.Text.C48_fixed_wide",
    "Verif.Text.C48_fixed_six",
    "Verif.Text.C48_fixed_negative",
    "Verif.Text.C48_decimal_min",
    "Verif.Text.C48_unknown"
   ],
   "note": "Every value and precision, under the conditions in the statements. Partial because the documented example {42:X} prints eight digits, hexadecimal precisions 4 to 7 copy overlapping memory, precisions above 8 are undefined, negative fixed point values are wrong, more than five decimals are not printed, and INT_MIN overflows: witnesses proved."
  },
  {
   "property": "C49",
   "status": "partial",
   "theorems": [
    "Verif.Flow.C49_partial",
    "Verif.Flow.C49_unique",
    "Verif.Flow.C49_mexit_endless",
    "Verif.Flow.C49_mexit_in_rept",
    "Verif.Flow.C49_endc_missing",
    "Verif.Flow.C49_stray_ends",
    "Verif.Flow.C49_rexit_last"
   ],
   "note": "Every structured program that has a meaning is assembled to its end with exactly the effects of its structure; statements and operands are parameters. Partial: programs are lists of lines (how lines are found in skipped text is C34), files end with a line break, and MEXIT inside a repetition has no meaning because the code does not end there. Refuted with witnesses: MEXIT and ENDM in a context that is no macro are read again and again, a missing ENDC is not noticed by half of the conditions nor behind ELSE, stray ENDC and ENDR are accepted, and REXIT needs a line break behind ENDR."
  },
  {
   "property": "C50",
   "status": "partial",
   "theorems": [
    "Verif.Cpu.Schip.C50_encodes",
    "Verif.Cpu.Schip.C50_refuses",
    "Verif.Cpu.Schip.C50_few",
    "Verif.Cpu.Schip.C50_offset",
    "Verif.Cpu.Schip.C50_super",
    "Verif.Cpu.Schip.C50_flags",
    "Verif.Cpu.Schip.C50_scd",
    "Verif.Cpu.Schip.C50_missing",
    "Verif.Cpu.Schip.C50_lo_hi"
   ],
   "note": "Every instruction that the assembler knows, except SCD, is decoded by a specification of the machine as what was written, for all operands and values; other operands, too few operands and instructions of the other machine are refused. Refuted with witnesses: SCD n is never assembled, LDM with RPL is assembled for the CHIP-8, a missing first operand becomes register 255, and the documented LO and HI do not exist. Reserved words as names in expressions are not modelled."
  },
  {
   "property": "C51",
   "status": "partial",
   "theorems": [
    "Verif.Cpu.Dcpu.C51_encodes",
    "Verif.Cpu.Dcpu.C51_jsr",
    "Verif.Cpu.Dcpu.C51_missing",
    "Verif.Cpu.Dcpu.C51_two_registers",
    "Verif.Cpu.Dcpu.C51_literal",
    "Verif.Cpu.Dcpu.C51_add_negative",
    "Verif.Cpu.Dcpu.C51_push",
    "Verif.Cpu.Dcpu.C51_subtract",
    "Verif.Cpu.Dcpu.C51_subtract_wrong"
   ],
   "note": "All instructions with all operands are decoded by a specification of the processor as what was written, optimised or not, if literals fit into 16 bits and the optimiser does not meet a small negative literal behind ADD or SUB. Partial because of these conditions. Refuted with witnesses: literals are not checked, the optimised ADD of a small negative literal uses freed memory, [--SP] is PEEK, and an offset cannot be subtracted, or is wrong."
  },
  {
   "property": "C52",
   "status": "partial",
   "theorems": [
    "Verif.Cpu.Mips.C52_encodes",
    "Verif.Cpu.Mips.C52_no_register",
    "Verif.Cpu.Mips.C52_three_registers",
    "Verif.Cpu.Mips.C52_base",
    "Verif.Cpu.Mips.C52_shift_registers",
    "Verif.Cpu.Mips.C52_bltzl",
    "Verif.Cpu.Mips.C52_unsigned",
    "Verif.Cpu.Mips.C52_unsigned_traps",
    "Verif.Cpu.Mips.C52_misaligned",
    "Verif.Cpu.Mips.C52_region",
    "Verif.Cpu.Mips.C52_no_number",
    "Verif.Cpu.Mips.C52_absent"
   ],
   "note": "All instructions that the assembler knows are decoded by a specification of the MIPS32 as what was written, for all registers, values and addresses, where Right holds. Partial because of what Right leaves out, each refuted with a witness: shifts by a register have their operands exchanged, BLTZL has another opcode, SLTIU, TGEIU and TLTIU do not take the numbers of the processor, targets that are not aligned or in another region are assembled without a message; a missing number is not noticed, and MULTU, JALR and others do not exist. Reserved words as names in expressions are not modelled."
  },
  {
   "property": "C53",
   "status": "partial",
   "theorems": [
    "Verif.Cpu.X65.C53_encode",
    "Verif.Cpu.X65.C53_absent",
    "Verif.Cpu.X65.C53_wrong_cpu",
    "Verif.Cpu.X65.C53_distinct",
    "Verif.Cpu.X65.C53_stp",
    "Verif.Cpu.X65.C53_rla",
    "Verif.Cpu.X65.C53_indirect_label",
    "Verif.Cpu.X65.C53_bbr_label",
    "Verif.Cpu.X65.C53_bit_negative",
    "Verif.Cpu.X65.C53_shift_negative",
    "Verif.Cpu.X65.C53_force_ignored",
    "Verif.Cpu.X65.C53_out_of_page"
   ],
   "note": "On the 6502, the 65C02 and the 65C02S, with every set of undocumented instructions, every instruction of the data sheet with every operand that it has becomes the bytes of the data sheet, for all expressions and values; other operands and the instructions of other processors are refused or leave something of the line unread. Partial because of the conditions in the statements, each refuted with a witness: RLA is assembled as SRE, STP and WAI are accepted for the 65C02, (label) and BBR n,label need known values, BIT #-1 is refused, a negative count makes a synthesized shift vanish, and < is ignored where there is no zero page mode. The 65C816, the 4510 and the 45GS02 are modelled, but not in this property."
  },
  {
   "property": "C54",
   "status": "partial",
   "theorems": [
    "Verif.Elf.C54_round_trip",
    "Verif.Elf.C54_format",
    "Verif.Elf.C54_patch_value",
    "Verif.Elf.C54_written",
    "Verif.Elf.C54_label_offset_refused",
    "Verif.Elf.C54_label_offset",
    "Verif.Elf.C54_short_patch",
    "Verif.Elf.C54_short_patch_end",
    "Verif.Elf.C54_reverse",
    "Verif.Elf.C54_exported_constant"
   ],
   "note": "Every file that is written follows the layout of the ABI, and is read back by the linker as sections that stand for those of the assembler, with all labels and patches, for all modules without exported constants, without patches that are not 32 bits and without expressions `number - symbol`. Partial because of these conditions, each refuted with a witness: an exported constant crashes the linker, a patch of 16 bits becomes one of 32 bits and clears the two bytes behind it, and 5-import becomes import+5; also refuted: label+1 cannot be written."
  },
  {
   "property": "C55",
   "status": "partial",
   "theorems": [
    "Verif.Ami.C55_executable",
    "Verif.Ami.C55_written",
    "Verif.Ami.C55_label",
    "Verif.Ami.C55_debug",
    "Verif.Ami.C55_no_sections",
    "Verif.Ami.C55_fixed_address",
    "Verif.Ami.C55_aligned"
   ],
   "note": "For all modules with a section, without debug information. Partial because the negation is proved for the rest: with debug information no executable can be loaded (the names of sections are in the place of resident libraries), an executable without sections cannot be loaded; also, fixed addresses are lost and addresses of labels of aligned sections are refused."
  },
  {
   "property": "C56",
   "status": "partial",
   "theorems": [
    "Verif.Ami.C56_object",
    "Verif.Ami.C56_written",
    "Verif.Ami.C56_chip",
    "Verif.Ami.C56_exported_constant",
    "Verif.Ami.C56_negated_import"
   ],
   "note": "For all modules in which nothing but numbers is subtracted in the expressions that are left. Partial because the negation is proved for the rest: 5-import becomes import+5, exported constants are not defined, and chip memory is not asked for."
  },
  {
   "property": "C57",
   "status": "partial",
   "theorems": [
    "Verif.Cpu.Z80.C57_encode",
    "Verif.Cpu.Z80.C57_decode",
    "Verif.Cpu.Z80.C57_refuse",
    "Verif.Cpu.Z80.C57_refuse_third",
    "Verif.Cpu.Z80.C57_words",
    "Verif.Cpu.Z80.C57_halves",
    "Verif.Cpu.Z80.C57_memory",
    "Verif.Cpu.Z80.C57_gameboy",
    "Verif.Cpu.Z80.C57_no_displacement",
    "Verif.Cpu.Z80.C57_shift_sp",
    "Verif.Cpu.Z80.C57_dec_half",
    "Verif.Cpu.Z80.C57_add_sp",
    "Verif.Cpu.Z80.C57_out_bc",
    "Verif.Cpu.Z80.C57_plus"
   ],
   "note": "For every mnemonic and every list of operands except those for which the negation is proved: LD with half an index register and H, L or (HL), LD between (HL) and (IX+d), instructions with (IX+d) on the Game Boy, shifts of (IX) without displacement, shifts of SP, DEC IXH, ADD SP,n with n above 127, OUT (BC),n."
  },
  {
   "property": "C58",
   "status": "partial",
   "theorems": [
    "Verif.Lexer.C58_words_empty",
    "Verif.Lexer.C58_words_define",
    "Verif.Lexer.C58_words_all",
    "Verif.Lexer.C58_words_undefine",
    "Verif.Lexer.C58_words_undefine_missing",
    "Verif.Lexer.C58_token_string",
    "Verif.Lexer.C58_token",
    "Verif.Lexer.C58_newline",
    "Verif.Lexer.C58_line",
    "Verif.Lexer.C58_contents_word",
    "Verif.Lexer.C58_contents_number",
    "Verif.Lexer.C58_name_characters",
    "Verif.Lexer.C58_reserved",
    "Verif.Lexer.C58_star",
    "Verif.Lexer.C58_string_undefined",
    "Verif.Lexer.C58_name_undefined",
    "Verif.Lexer.C58_last_line",
    "Verif.Lexer.C58_parse",
    "Verif.Lexer.C58_self_replacement"
   ],
   "note": "For all texts whose numbers are integers (fractions, floats and Game Boy literals are in C31), with names and strings of at most 256 characters, and if the contents of string symbols fit on the stack of characters. Partial because the negation is proved for the contents of string symbols that are words or numbers, for unterminated strings and for longer names."
  },
  {
   "property": "C59",
   "status": "proved",
   "theorems": [
    "Verif.Source.C59_read",
    "Verif.Source.writable_tree",
    "Verif.Source.written_exists",
    "Verif.Source.Z80.C59_z80",
    "Verif.Source.Z80.C59_z80_written",
    "Verif.Source.C59_line",
    "Verif.Source.C59_operators",
    "Verif.Source.M6809.C59_6809",
    "Verif.Source.M6809.C59_6809_written"
   ],
   "note": "For every line in which the parts are separated by blanks (other lines: C58_line), and with names of string symbols (C58_parse). The bytes are those of C57 and C60, for the instructions for which these are proved; for other processors only C59_line."
  },
  {
   "property": "C60",
   "status": "partial",
   "theorems": [
    "Verif.Cpu.M6809.C60_encode",
    "Verif.Cpu.M6809.C60_refuse",
    "Verif.Cpu.M6809.C60_every_opcode",
    "Verif.Cpu.M6809.C60_words",
    "Verif.Cpu.M6809.C60_setdp",
    "Verif.Cpu.M6809.C60_not_index",
    "Verif.Cpu.M6809.C60_not_index_here",
    "Verif.Cpu.M6809.C60_not_near",
    "Verif.Cpu.M6809.C60_not_unknown",
    "Verif.Cpu.M6809.C60_not_hash",
    "Verif.Cpu.M6809.C60_not_words",
    "Verif.Cpu.M6809.C60_not_comma"
   ],
   "note": "Proved except for what the assembler gets wrong: offsets of 8 and 16 bits from Y, U and S are encoded as offsets from X, distances from 128 to 255 are accepted in short branches, offsets that are not known are not read, ROL, ROR and lists of registers take #, LSRA and LSRB are missing."
  },
  {
   "property": "C61",
   "status": "partial",
   "theorems": [
    "Verif.Program.C61_contents",
    "Verif.Program.C61_symbols",
    "Verif.Program.C61_unique",
    "Verif.Program.C61_instruction",
    "Verif.Program.C61_code",
    "Verif.Program.C61_z80",
    "Verif.Program.C61_6809"
   ],
   "note": "For every program of labels, EQU, SET, EXTERN, GLOBAL, instructions, data and section directives that the assembler and the linker accept, every section has exactly the bytes of its statements with the final addresses, symbols have the values they stand for, and the bytes of each instruction are at its place; lines of text with instructions of the Z80 and the 6809 become bytes that the processor reads as these instructions with the final addresses. Partial: that a program that fits is accepted is not shown for whole programs, ORG, sections without data and processors that count in words are left out, and that the linker gives symbols their values is a hypothesis (Linked), which C62 shows for programs that are linked."
  },
  {
   "property": "C62",
   "status": "partial",
   "theorems": [
    "Verif.Program.C62_linked",
    "Verif.Program.C62_program",
    "Verif.Program.Confused.C62_local_labels_confused"
   ],
   "note": "For every list of programs as in C61 that are linked without layout symbols, and if names which a section takes from other sections of its own program are unique. Partial because for others the negation is proved: of two local labels of the same name in different scopes that are used by another section, the linker takes one for both. That the linker finds sections at these places and that imports have one meaning are hypotheses (Linking, Agree); placement itself is C07 to C10, reading of object files C15."
  },
  {
   "property": "C63",
   "status": "partial",
   "theorems": [
    "Verif.Cpu.Rc8.C63_lines_of_the_RC8",
    "Verif.Cpu.Rc8.C63_lio_writes_through_HL",
    "Verif.Cpu.Rc8.C63_lco_reads_a_byte",
    "Verif.Cpu.Rc8.C63_sub_t_negates",
    "Verif.Cpu.Rc8.C63_exg_with_itself",
    "Verif.Cpu.Rc8.C63_add_ft",
    "Verif.Cpu.Rc8.C63_store_f",
    "Verif.Cpu.Rc8.C63_lio_word",
    "Verif.Cpu.Rc8.C63_push_twice",
    "Verif.Cpu.Rc8.C63_push_slash",
    "Verif.Cpu.Rc8.C63_words_refused",
    "Verif.Cpu.Rc8.C63_words_for_bytes"
   ],
   "note": "For every line with a meaning, with any condition and any readable expressions: it is accepted, and its bytes, executed by a model of the processor at any address, do what the line says and go on behind it, or do nothing if the condition does not hold; there are no bytes exactly if the value is not one of those in Form.fits. Partial because the negation is proved for the lines of Form.wrong, which are assembled as something else, for lines without a meaning that are accepted, and for values that are refused or accepted wrongly; that all other lines are refused is not shown. How the processor sets flags, which register JAL links and what SYS, PICK and RETI do is left open (structure Cpu)."
  },
  {
   "property": "C64",
   "status": "partial",
   "theorems": [
    "Verif.Options.C64_restored",
    "Verif.Options.C64_6502",
    "Verif.Options.C64_6502_words",
    "Verif.Options.C64_6502_reach",
    "Verif.Options.C64_6502_unknown",
    "Verif.Options.C64_680x0",
    "Verif.Options.C64_680x0_options",
    "Verif.Options.C64_680x0_letters",
    "Verif.Options.C64_680x0_refused",
    "Verif.Options.C64_z80",
    "Verif.Options.C64_z80_letters",
    "Verif.Options.C64_z80_refused",
    "Verif.Options.C64_z80_set",
    "Verif.Options.C64_z80_default",
    "Verif.Options.C64_other_letters",
    "Verif.Options.C64_other_refused",
    "Verif.Options.C64_other_restored",
    "Verif.Options.C64_dcpu_set",
    "Verif.Options.C64_dcpu_default",
    "Verif.Options.C64_others",
    "Verif.Options.C64_empty",
    "Verif.Options.C64_refused",
    "Verif.Options.C64_own_letter",
    "Verif.Options.C64_values",
    "Verif.Options.C64_warning",
    "Verif.Options.C64_warning_full",
    "Verif.Options.C64_path_stays",
    "Verif.Options.C64_warning_cut",
    "Verif.Options.C64_refused_but_set",
    "Verif.Options.C64_groups_stay",
    "Verif.Options.C64_error_of_POPO"
   ],
   "note": "For every sequence of OPT, PUSHO, POPO and directives that set options of the processor, and every processor that obeys a law (Law), which is shown for the 6502 family (words, base page) and for all others. Partial because the negation is proved for the paths of included files, which are not restored, for numbers of warnings above 65535 and for more than 32 of them, for a refused option of the 6502, for the groups of a platform of the 680x0, which stay, for errors that only POPO reports, and for the defaults of undocumented instructions of the Z80 and of optimisation for the DCPU-16, which are not set."
  }
 ]
}