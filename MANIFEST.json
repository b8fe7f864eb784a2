{
 "claims": [
  {
   "property": "C01",
   "status": "proved",
   "theorems": [
    "FF.C01_boolean_semantics",
    "FF.C01_empty",
    "FF.C01_unambiguous"
   ],
   "note": ""
  },
  {
   "property": "C02",
   "status": "partial",
   "theorems": [
    "FF.C02_balanced_partial",
    "FF.C02_not_followed_partial",
    "FF.C02_accepted_is_formula_partial",
    "FF.C02_accept_iff_partial",
    "FF.C02_false",
    "FF.C02_false_contrast"
   ],
   "note": "False as stated: an empty first alternative inside brackets is accepted and with -d the wrapping brackets let stray tokens through (C02_false). Proved: acceptance is equivalent to the grammar for expressions without such alternatives."
  },
  {
   "property": "C03",
   "status": "proved",
   "theorems": [
    "FF.C03_optimize_irrelevant",
    "FF.C03_optimize_sound",
    "FF.C03_optimize_sorted"
   ],
   "note": ""
  },
  {
   "property": "C04",
   "status": "proved",
   "theorems": [
    "FF.C04_complement",
    "FF.C04_missing"
   ],
   "note": ""
  },
  {
   "property": "C05",
   "status": "partial",
   "theorems": [
    "FF.C05_roundtrip_partial",
    "FF.C05_reference",
    "FF.C05_sound",
    "FF.C05_spellings",
    "FF.C05_false",
    "FF.C05_quirk"
   ],
   "note": "False for values containing a newline (C05_false); proved for all other values, with and without blanks and references, and only such strings are accepted (C05_sound)."
  },
  {
   "property": "C06",
   "status": "proved",
   "theorems": [
    "FF.C06_excluded_iff",
    "FF.C06_accepted",
    "FF.C06_empty",
    "FF.C06_nested_crashes"
   ],
   "note": "Plain tests only, as the statement says; nested expressions crash (C06_nested_crashes)."
  },
  {
   "property": "C07",
   "status": "partial",
   "theorems": [
    "FF.C07_sound",
    "FF.C07_complete_partial",
    "FF.C07_false"
   ],
   "note": "C07_sound needs no assumption. Completeness (C07_complete_partial) assumes that queue.get reports Empty only after the worker's own feeder thread is done and nothing is left; C07_false shows a lost entry without it. Start directories are assumed distinct. -x arguments in the queue are not modelled."
  },
  {
   "property": "C08",
   "status": "proved",
   "theorems": [
    "FF.C08_prune",
    "FF.C08_sound"
   ],
   "note": "No timing assumption: stated for every state in which no work is left."
  },
  {
   "property": "C09",
   "status": "proved",
   "theorems": [
    "FF.C09_hide"
   ],
   "note": "From the arguments through the exclude tests and the walk; for start directories with a non-empty name."
  },
  {
   "property": "C10",
   "status": "proved",
   "theorems": [
    "FF.C10_matcher",
    "FF.C10_depth"
   ],
   "note": "For every expression of the documented grammar and every list of ranges the command line accepts. Some expressions outside the grammar that are refused without -d are accepted with -d (see DESIGN.md, Findings)."
  },
  {
   "property": "C11",
   "status": "partial",
   "theorems": [
    "FF.C11_complete_partial",
    "FF.C11_sound",
    "FF.C11_false"
   ],
   "note": "C11_sound needs no assumption. C11_complete_partial assumes a worker's get timeout outlasts main's barrier timeout; C11_false shows that results are lost otherwise."
  },
  {
   "property": "C12",
   "status": "proved",
   "theorems": [
    "FF.C12_search_chunks",
    "FF.C12_result_chunks",
    "FF.C12_share"
   ],
   "note": ""
  },
  {
   "property": "C13",
   "status": "proved",
   "theorems": [
    "FF.C13_last"
   ],
   "note": "Character classes with backslashes or brackets are not modelled (they count as malformed patterns)."
  },
  {
   "property": "C14",
   "status": "partial",
   "theorems": [
    "FF.C14_component",
    "FF.C14_path_partial",
    "FF.C14_path",
    "FF.C14_false",
    "FF.C14_false_anchored",
    "FF.C14_false_quoted"
   ],
   "note": "C14_component and C14_path are exact for patterns that do not end in '**' whose classes hold neither backslash nor closing bracket, have hyphens that stand for themselves at their ends only and exclude the slash, on names without newline; C14_path_partial covers a final '**'. C14_false, C14_false_anchored and C14_false_quoted list where the code deviates from gitignore(5)."
  },
  {
   "property": "C15",
   "status": "proved",
   "theorems": [
    "FF.C15_markers",
    "FF.C15_hash",
    "FF.C15_scope",
    "FF.C15_directory",
    "FF.C15_pattern"
   ],
   "note": "C15_markers, C15_scope and C15_directory hold for every pattern; C15_pattern combines them with the wildcards."
  },
  {
   "property": "C16",
   "status": "proved",
   "theorems": [
    "FF.C16_override",
    "FF.C16_order",
    "FF.C16_scope",
    "FF.C16_only_below",
    "FF.C16_search"
   ],
   "note": "C16_search: the whole chain from the walk to the verdict; files are assumed not to change during the search."
  },
  {
   "property": "C17",
   "status": "partial",
   "theorems": [
    "FF.C17_selected",
    "FF.C17_all_files",
    "FF.C17_false"
   ],
   "note": "Proved for trees with at most one ignore file per directory (C17_selected); C17_false: with two files in a directory the listing order decides. C17_all_files holds in any case."
  },
  {
   "property": "C18",
   "status": "partial",
   "theorems": [
    "FF.C18_dot_partial",
    "FF.C18_abs_partial",
    "FF.C18_false"
   ],
   "note": "Exact for '.' (C18_dot_partial); for other start directories the direct parent is missed (C18_false, C18_abs_partial)."
  },
  {
   "property": "C19",
   "status": "proved",
   "theorems": [
    "FF.C19_order",
    "FF.C19_reference",
    "FF.C19_input",
    "FF.C19_trichotomy"
   ],
   "note": ""
  },
  {
   "property": "C20",
   "status": "proved",
   "theorems": [
    "FF.C20_bits",
    "FF.C20_reference"
   ],
   "note": ""
  },
  {
   "property": "C21",
   "status": "partial",
   "theorems": [
    "FF.C21_meaning",
    "FF.C21_symbolic_partial",
    "FF.C21_false",
    "FF.C21_octal",
    "FF.C21_accepted"
   ],
   "note": "False for clauses about different classes and for repeated = (C21_false). Proved: octal values, all clause lists about the same classes, and an exact characterisation of every clause list (C21_meaning)."
  },
  {
   "property": "C22",
   "status": "proved",
   "theorems": [
    "FF.C22_sum",
    "FF.C22_roundtrip",
    "FF.C22_minutes",
    "FF.C22_output"
   ],
   "note": ""
  },
  {
   "property": "C23",
   "status": "partial",
   "theorems": [
    "FF.C23_accept_iff_partial",
    "FF.C23_missing_unit_partial",
    "FF.C23_false"
   ],
   "note": "False: any single character is accepted in place of a unit (C23_false). Proved: exact characterisation of the accepted strings."
  },
  {
   "property": "C24",
   "status": "partial",
   "theorems": [
    "FF.C24_bytes",
    "FF.C24_unit",
    "FF.C24_sound",
    "FF.C24_exact_partial",
    "FF.C24_error_partial",
    "FF.C24_false",
    "FF.C24_manual_false"
   ],
   "note": "Syntax and factors proved in full (C24_bytes, C24_unit, C24_sound); values go through doubles and are exact only for representable numbers (C24_exact_partial, C24_false). The manual's base for KiB is wrong (C24_manual_false)."
  },
  {
   "property": "C25",
   "status": "partial",
   "theorems": [
    "FF.C25_patterns_partial",
    "FF.C25_false",
    "FF.C25_float_partial",
    "FF.C25_number_partial",
    "FF.C25_compact_false"
   ],
   "note": "False for the documented all-digit patterns: every YYYYMMDD is taken for seconds since epoch (C25_compact_false); proved for values float() refuses."
  },
  {
   "property": "C26",
   "status": "partial",
   "theorems": [
    "FF.C26_debug_partial",
    "FF.C26_documented",
    "FF.C26_optimised",
    "FF.C26_false"
   ],
   "note": "False for the installed program, which runs python -O and so strips the check (C26_false, C26_optimised); proved for debug mode."
  },
  {
   "property": "C27",
   "status": "proved",
   "theorems": [
    "FF.C27_string",
    "FF.C27_path",
    "FF.C27_insensitive",
    "FF.C27_exact",
    "FF.C27_exact_path",
    "FF.C27_regex_quirk"
   ],
   "note": "str.lower is a parameter assumed idempotent. Regular expressions are lower-cased themselves (C27_regex_quirk)."
  },
  {
   "property": "C28",
   "status": "proved",
   "theorems": [
    "FF.C28_any",
    "FF.C28_string"
   ],
   "note": ""
  },
  {
   "property": "C29",
   "status": "partial",
   "theorems": [
    "FF.C29_partial",
    "FF.C29_encode_partial",
    "FF.C29_false",
    "FF.C29_root_false"
   ],
   "note": "C29_false and C29_root_false: names that cannot be encoded are printed like other names, and files directly in / are printed with two slashes. Proved for everything else."
  },
  {
   "property": "C30",
   "status": "proved",
   "theorems": [
    "FF.C30_json",
    "FF.C30_jsonl"
   ],
   "note": "Well-formedness is that of RFC 8259."
  },
  {
   "property": "C31",
   "status": "proved",
   "theorems": [
    "FF.C31_line",
    "FF.C31_json"
   ],
   "note": "For JSON if no field is given twice: equal labels share one member."
  },
  {
   "property": "C32",
   "status": "partial",
   "theorems": [
    "FF.C32_partial",
    "FF.C32_output_partial",
    "FF.C32_width_partial",
    "FF.C32_false"
   ],
   "note": "C32_false: with LS_COLORS unset entries are not printed. Proved for LS_COLORS set to anything."
  },
  {
   "property": "C33",
   "status": "proved",
   "theorems": [
    "FF.C33_pad",
    "FF.C33_width"
   ],
   "note": ""
  },
  {
   "property": "C34",
   "status": "proved",
   "theorems": [
    "FF.C34_slice",
    "FF.C34_pages",
    "FF.C34_all"
   ],
   "note": "Slices of the results: every limit option selects the entries at the wanted positions; consecutive pages add up to the whole."
  },
  {
   "property": "C35",
   "status": "proved",
   "theorems": [
    "FF.C35_sorted",
    "FF.C35_permutation",
    "FF.C35_unsorted"
   ],
   "note": "The results are sorted by the sort fields, nothing is lost; stable and reversed as Python does it."
  },
  {
   "property": "C36",
   "status": "partial",
   "theorems": [
    "FF.C36_values",
    "FF.C36_partial",
    "FF.C36_false"
   ],
   "note": "The order is a function of the set of results only if different entries have different keys; C36_false shows two names that differ in case."
  },
  {
   "property": "C37",
   "status": "partial",
   "theorems": [
    "FF.C37_names_partial",
    "FF.C37_paths_partial",
    "FF.C37_number",
    "FF.C37_false",
    "FF.C37_missing_false"
   ],
   "note": "Natural order holds for names and paths without the type confusion of C37_false; C37_missing_false: missing values crash."
  },
  {
   "property": "C38",
   "status": "partial",
   "theorems": [
    "FF.C38_lines_partial",
    "FF.C38_json_partial",
    "FF.C38_false",
    "FF.C38_names_false",
    "FF.C38_modifier_false",
    "FF.C38_fields"
   ],
   "note": "Lines and JSON are exact for attributes given once; C38_false: an attribute given twice is counted twice, C38_modifier_false: one label for two statistics."
  },
  {
   "property": "C39",
   "status": "partial",
   "theorems": [
    "FF.C39_partial",
    "FF.C39_false",
    "FF.C39_mixed_false"
   ],
   "note": "Proved for at least one result and values that are all numbers or all no numbers; C39_false: nothing is printed without results; C39_mixed_false: a.1 and a.txt crash --count ext."
  },
  {
   "property": "C40",
   "status": "proved",
   "theorems": [
    "FF.C40_command",
    "FF.C40_literal",
    "FF.C40_verbatim",
    "FF.C40_batch",
    "FF.C40_batch_refused"
   ],
   "note": ""
  },
  {
   "property": "C41",
   "status": "partial",
   "theorems": [
    "FF.C41_prefix",
    "FF.C41_once_partial",
    "FF.C41_single",
    "FF.C41_false",
    "FF.C41_paths_partial"
   ],
   "note": "Once and in order if every single result fits and the command can be started; C41_false: a result that does not fit is dropped with all that follow, and ff exits with 0."
  },
  {
   "property": "C42",
   "status": "proved",
   "theorems": [
    "FF.C42_status",
    "FF.C42_counts",
    "FF.C42_failed",
    "FF.C42_halt_false",
    "FF.C42_batch"
   ],
   "note": "For the documented values of --halt; C42_halt_false shows an undocumented one, which is not refused."
  },
  {
   "property": "C43",
   "status": "proved",
   "theorems": [
    "FF.C43_option",
    "FF.C43_halt",
    "FF.C43_never",
    "FF.C43_search",
    "FF.C43_search_all",
    "FF.C43_search_upTo"
   ],
   "note": "For the pool of jobs and while searching, with one job."
  },
  {
   "property": "C44",
   "status": "partial",
   "theorems": [
    "FF.C44_immediate",
    "FF.C44_collective_partial",
    "FF.C44_modes"
   ],
   "note": "Proved for immediate processing; with options that collect results it is assumed that the main process gets the results, see C11_false."
  },
  {
   "property": "C45",
   "status": "partial",
   "theorems": [
    "FF.C45_latest",
    "FF.C45_hit",
    "FF.C45_partial",
    "FF.C45_saved",
    "FF.C45_pending",
    "FF.C45_false"
   ],
   "note": "Any history with crashes; lookups that return give the plain data, for path names that are valid UTF-8 (C45_false for others); they fail if another plugin dropped the table (C47_crash_false)."
  },
  {
   "property": "C46",
   "status": "partial",
   "theorems": [
    "FF.C46_partial",
    "FF.C46_backslash_partial",
    "FF.C46_false"
   ],
   "note": "Holds for names that are valid UTF-8, or without backslashes; C46_false otherwise."
  },
  {
   "property": "C47",
   "status": "partial",
   "theorems": [
    "FF.C47_partial",
    "FF.C47_versions",
    "FF.C47_false",
    "FF.C47_crash_false"
   ],
   "note": "Holds unless the name of the other plugin begins with the name of the one that is set up: C47_false, C47_crash_false. Names without underscores."
  },
  {
   "property": "C48",
   "status": "partial",
   "theorems": [
    "FF.C48_keeps_partial",
    "FF.C48_partial",
    "FF.C48_false",
    "FF.C48_uncommitted_partial",
    "FF.C48_name_partial",
    "FF.C48_name_false"
   ],
   "note": "The right rows are deleted, but the transaction is never committed since vacuum fails in it: C48_false. C48_name_false: undecodable names are taken for stale."
  },
  {
   "property": "C49",
   "status": "proved",
   "theorems": [
    "FF.C49_unqualified",
    "FF.C49_qualified",
    "FF.C49_type"
   ],
   "note": ""
  },
  {
   "property": "C50",
   "status": "proved",
   "theorems": [
    "FF.C50_first",
    "FF.C50_names",
    "FF.C50_order"
   ],
   "note": "The documented order is the order of the code; within one directory the order is that of os.scandir."
  },
  {
   "property": "C51",
   "status": "proved",
   "theorems": [
    "FF.C51_search",
    "FF.C51_accept_iff",
    "FF.C51_refl",
    "FF.C51_symm",
    "FF.C51_builtin",
    "FF.C51_list_crashes"
   ],
   "note": "References to list attributes pass the check but crash afterwards (C51_list_crashes)."
  },
  {
   "property": "C52",
   "status": "partial",
   "theorems": [
    "FF.C52_spellings_partial",
    "FF.C52_equal_partial",
    "FF.C52_table",
    "FF.C52_false"
   ],
   "note": "An option taking an argument that ends a bundle of short options gets the empty string instead of the next word (C52_false)."
  },
  {
   "property": "C53",
   "status": "proved",
   "theorems": [
    "FF.C53_rest_verbatim"
   ],
   "note": ""
  },
  {
   "property": "C54",
   "status": "partial",
   "theorems": [
    "FF.C54_never_refused",
    "FF.C54_false"
   ],
   "note": "The code violates the claim: choices are never checked (C54_never_refused, C54_false)."
  },
  {
   "property": "C55",
   "status": "partial",
   "theorems": [
    "FF.C55_leading_partial",
    "FF.C55_trailing_partial",
    "FF.C55_explicit",
    "FF.C55_conserved",
    "FF.C55_false"
   ],
   "note": "The code violates the claim when directories stand at both ends or a name occurs twice (C55_false); the leading and the trailing case are proved, and that nothing but directories is ever taken away."
  },
  {
   "property": "C56",
   "status": "partial",
   "theorems": [
    "FF.C56_refused_iff_partial",
    "FF.C56_disjoint_partial",
    "FF.C56_false"
   ],
   "note": "The code does not notice equal spellings and paths with exactly two leading slashes (C56_false); the rest is proved."
  },
  {
   "property": "C57",
   "status": "proved",
   "theorems": [
    "FF.C57_jobs",
    "FF.C57_numeral"
   ],
   "note": ""
  },
  {
   "property": "C58",
   "status": "proved",
   "theorems": [
    "FF.C58_ranges",
    "FF.C58_ranges_refused",
    "FF.C58_ordered",
    "FF.C58_slice",
    "FF.C58_slice_refused"
   ],
   "note": "A trailing newline is tolerated in slices, and malformed ranges end in an uncaught ValueError."
  },
  {
   "property": "C59",
   "status": "proved",
   "theorems": [
    "FF.C59_entry",
    "FF.C59_namex",
    "FF.C59_splitext_spec",
    "FF.C59_splitext_unique"
   ],
   "note": ""
  },
  {
   "property": "C60",
   "status": "proved",
   "theorems": [
    "FF.C60_join_split",
    "FF.C60_join_split_exception",
    "FF.C60_entry",
    "FF.C60_abspath"
   ],
   "note": "Entry level statement holds for every start directory and relative path; bare split/join has the exception //name."
  },
  {
   "property": "C61",
   "status": "proved",
   "theorems": [
    "FF.C61_depth",
    "FF.C61_hide",
    "FF.C61_hidden"
   ],
   "note": ""
  },
  {
   "property": "C62",
   "status": "partial",
   "theorems": [
    "FF.C62_mount_longest_partial",
    "FF.C62_false"
   ],
   "note": "False for a directory that is itself a mount point (C62_false); proved for all other paths."
  },
  {
   "property": "C63",
   "status": "partial",
   "theorems": [
    "FF.C63_device_partial",
    "FF.C63_link_false",
    "FF.C63_one_file_system"
   ],
   "note": "Proved with what samedev says as a parameter (C63_one_file_system), and with devices from stat() if the start directory is no symbolic link or links are followed (C63_device_partial). False for a start directory that is a symbolic link to another device: nothing is found (C63_link_false)."
  },
  {
   "property": "C64",
   "status": "proved",
   "theorems": [
    "FF.C64_syntax"
   ],
   "note": ""
  },
  {
   "property": "C65",
   "status": "proved",
   "theorems": [
    "FF.C65_number",
    "FF.C65_decimal"
   ],
   "note": ""
  },
  {
   "property": "C66",
   "status": "proved",
   "theorems": [
    "FF.C66_type"
   ],
   "note": "For a str.lower that leaves the documented names alone."
  },
  {
   "property": "C67",
   "status": "proved",
   "theorems": [
    "FF.C67_default"
   ],
   "note": "For every command line spelled as in C52."
  },
  {
   "property": "C68",
   "status": "proved",
   "theorems": [
    "FF.C68_close",
    "FF.C68_output",
    "FF.C68_monotone",
    "FF.C68_parse",
    "FF.C68_beyond"
   ],
   "note": "C68_beyond: from base^9 on the number is wrong by a factor of the base (no file has such a size)."
  },
  {
   "property": "C69",
   "status": "proved",
   "theorems": [
    "FF.C69_date",
    "FF.C69_minute",
    "FF.C69_second",
    "FF.C69_skipped",
    "FF.C69_time",
    "FF.C69_no_date",
    "FF.C69_no_minute",
    "FF.C69_no_second",
    "FF.C69_no_time"
   ],
   "note": "For time zones with at most one change of clocks in the days around. lenient_times shows undocumented texts that are accepted."
  },
  {
   "property": "C70",
   "status": "partial",
   "theorems": [
    "FF.C70_shown",
    "FF.C70_roundtrip_partial",
    "FF.C70_false"
   ],
   "note": "Holds unless clocks show the time for the second time (C70_false); one change of clocks in the days around."
  },
  {
   "property": "C71",
   "status": "proved",
   "theorems": [
    "FF.C71_type",
    "FF.C71_perm",
    "FF.C71_exec",
    "FF.C71_size",
    "FF.C71_empty"
   ],
   "note": "os.stat itself is outside of the model."
  },
  {
   "property": "C72",
   "status": "proved",
   "theorems": [
    "FF.C72_type",
    "FF.C72_perms",
    "FF.C72_injective",
    "FF.C72_output"
   ],
   "note": "stat.filemode of the Python library is modelled as well."
  },
  {
   "property": "C73",
   "status": "proved",
   "theorems": [
    "FF.C73_names"
   ],
   "note": "pwd and grp databases are assumed not to change during a run."
  },
  {
   "property": "C74",
   "status": "partial",
   "theorems": [
    "FF.C74_same_partial",
    "FF.C74_root_false",
    "FF.C74_absolute_false",
    "FF.C74_name_false"
   ],
   "note": "Holds for search directories other than / and without --absolute-path; C74_root_false, C74_absolute_false and C74_name_false give the exceptions."
  },
  {
   "property": "C75",
   "status": "partial",
   "theorems": [
    "FF.C75_repo",
    "FF.C75_gitfile_false"
   ],
   "note": "Proved for repositories with a directory .git; where .git is a file, as in linked working trees, there is no data (C75_gitfile_false)."
  },
  {
   "property": "C76",
   "status": "partial",
   "theorems": [
    "FF.C76_tracked_partial",
    "FF.C76_dirty_partial",
    "FF.C76_quoted_false",
    "FF.C76_space_false",
    "FF.C76_renamed_false"
   ],
   "note": "Proved for names that git prints without quotes and without renamed files; C76_quoted_false, C76_space_false, C76_renamed_false otherwise."
  },
  {
   "property": "C77",
   "status": "proved",
   "theorems": [
    "FF.C77_verdicts",
    "FF.C77_order"
   ],
   "note": "Ignore files are assumed not to change during the search."
  },
  {
   "property": "C78",
   "status": "partial",
   "theorems": [
    "FF.C78_access_partial",
    "FF.C78_other",
    "FF.C78_false"
   ],
   "note": "Proved if names stay different when dots become underscores and are no methods of dictionaries; C78_false."
  },
  {
   "property": "C79",
   "status": "proved",
   "theorems": [
    "FF.C79_words",
    "FF.C79_unique",
    "FF.C79_quoted"
   ],
   "note": "shlex.split of the Python library is modelled."
  },
  {
   "property": "C80",
   "status": "partial",
   "theorems": [
    "FF.C80_count",
    "FF.C80_binary",
    "FF.C80_text",
    "FF.C80_lines",
    "FF.C80_contains",
    "FF.C80_equal_false"
   ],
   "note": "linecount and the operator : are proved; = never matches a terminated line (C80_equal_false)."
  },
  {
   "property": "C81",
   "status": "proved",
   "theorems": [
    "FF.C81_parts"
   ],
   "note": "A content type without a slash is an exception of the plugin."
  },
  {
   "property": "C82",
   "status": "partial",
   "theorems": [
    "FF.C82_none",
    "FF.C82_combined_partial",
    "FF.C82_tests_twice",
    "FF.C82_command",
    "FF.C82_false"
   ],
   "note": "FF_OPTIONS must not end with an option whose optional argument is left out, or with tests, unless the command line begins with an option: a test on the command line becomes the argument of a final --sort (C82_false). A command in FF_OPTIONS swallows the command line (C82_command); tests in both are refused (C82_tests_twice). A quote that is not closed is an exception nothing catches."
  },
  {
   "property": "C83",
   "status": "proved",
   "theorems": [
    "FF.C83_refused",
    "FF.C83_mode",
    "FF.C83_count",
    "FF.C83_exec",
    "FF.C83_kept",
    "FF.C83_accepted"
   ],
   "note": ""
  },
  {
   "property": "C84",
   "status": "proved",
   "theorems": [
    "FF.C84_file",
    "FF.C84_other",
    "FF.C84_twice"
   ],
   "note": "Only the first file in the list is replaced, a second one is refused (C84_twice)."
  },
  {
   "property": "C85",
   "status": "partial",
   "theorems": [
    "FF.C85_sound",
    "FF.C85_complete_partial",
    "FF.C85_false"
   ],
   "note": "Completeness under the timing assumption that a worker's queue is flushed before its get() reports Empty; false without (C85_false). Soundness needs no assumption. Commands that fail with --halt, and errors in workers, are the subject of C92."
  },
  {
   "property": "C86",
   "status": "proved",
   "theorems": [
    "FF.C86_bounded",
    "FF.C86_no_deadlock",
    "FF.C86_end",
    "FF.C86_collect_bounded",
    "FF.C86_collect_no_deadlock"
   ],
   "note": "Progress of the operating system's scheduler (that a process that can go on does so) is not modelled: the theorems say that there is no infinite work and no deadlock."
  },
  {
   "property": "C87",
   "status": "partial",
   "theorems": [
    "FF.C87_batch_partial",
    "FF.C87_count_partial",
    "FF.C87_console_partial",
    "FF.C87_exec_partial",
    "FF.C87_collect_partial",
    "FF.C87_text_partial",
    "FF.C87_fields",
    "FF.C87_json",
    "FF.C87_output_partial",
    "FF.C87_halt_partial"
   ],
   "note": "For runs in which a process only finds a queue empty when nothing is under way (C85_false shows what happens otherwise), with tests and exclude tests that are accepted, different directories whose names do not begin with exactly two slashes, and trees without duplicate names. C87_console_partial: what is printed immediately and the exit status with --fail; C87_exec_partial: commands; C87_collect_partial: what is collected; C87_text_partial and C87_output_partial: the text, the order and the limit, for entries none of which is a file directly in / (C29_root_false). C87_fields and C87_json: the text of -o, --json and --jsonl. C87_batch_partial: the commands of -X; C87_count_partial: the text of --count. C87_halt_partial: the commands when some of them or workers fail."
  },
  {
   "property": "C88",
   "status": "partial",
   "theorems": [
    "FF.C88_entries_partial",
    "FF.C88_same_partial",
    "FF.C88_refused",
    "FF.C88_jobs_false"
   ],
   "note": "For runs in which a process only finds a queue empty when nothing is under way (C85_false shows what happens otherwise), with at least one job (C88_jobs_false: with jobs=0 nothing is yielded), tests that are accepted, different directories whose names do not begin with exactly two slashes, and trees without duplicate names. C88_entries_partial: the records and their order; C88_same_partial: the same records as with --jsonl; C88_refused: arguments that are refused."
  },
  {
   "property": "C89",
   "status": "partial",
   "theorems": [
    "FF.C89_run_partial",
    "FF.C89_order",
    "FF.C89_complete",
    "FF.C89_status",
    "FF.C89_halt",
    "FF.C89_bounded",
    "FF.C89_no_deadlock",
    "FF.C89_halt_false"
   ],
   "note": "The pool itself is proved without restrictions (C89_order, C89_complete, C89_status, C89_halt, C89_bounded, C89_no_deadlock). C89_halt_false shows that with several jobs a command can be started after another one has failed and the stop signal has been sent, so the exception in the statement is needed. C89_run_partial: from the command line on, for runs in which a process only finds a queue empty when nothing is under way."
  },
  {
   "property": "C90",
   "status": "partial",
   "theorems": [
    "FF.C90_name_partial",
    "FF.C90_dir_partial",
    "FF.C90_path_partial",
    "FF.C90_other_partial",
    "FF.C90_suffix_false",
    "FF.C90_target_false",
    "FF.C90_dirname_false"
   ],
   "note": "For LS_COLORS consisting of items for kinds (two letters) and single extensions: C90_name_partial, C90_dir_partial, C90_path_partial, C90_other_partial. The code fails for suffixes that are no single extension (C90_suffix_false: *.tar.gz=31 colours all *.gz files), for ln=target (C90_target_false) and for the name field of directories (C90_dirname_false)."
  },
  {
   "property": "C91",
   "status": "partial",
   "theorems": [
    "FF.C91_target_partial",
    "FF.C91_broken_partial",
    "FF.C91_other",
    "FF.C91_absolute_false",
    "FF.C91_dots_false"
   ],
   "note": "Proved for relative links, and for all links found in the current directory without a path: a link that leads to a file has this file as its target and is not broken (C91_target_partial); it is reported broken if and only if it leads nowhere, if the texts of links contain dots at the beginning only, as in ../lib/x (C91_broken_partial); other files (C91_other). Absolute links found elsewhere get a wrong target and are reported broken (C91_absolute_false), and a link through a missing directory and back is not reported broken (C91_dots_false). Permissions and other errors of the file system are not modelled."
  },
  {
   "property": "C92",
   "status": "partial",
   "theorems": [
    "FF.C92_sound",
    "FF.C92_status",
    "FF.C92_complete_partial",
    "FF.C92_success_partial",
    "FF.C92_halt",
    "FF.C92_stops",
    "FF.C92_bounded",
    "FF.C92_no_deadlock",
    "FF.C92_none_false"
   ],
   "note": "C92_complete_partial and C92_success_partial under the timing assumption of C85; everything else without assumptions. Whether and when a command fails is left open, so --halt now, which terminates the commands that are running, is one of the possibilities. Everything can fail at any time: commands, workers with an unexpected error, workers that are killed."
  },
  {
   "property": "C93",
   "status": "partial",
   "theorems": [
    "FF.C93_some",
    "FF.C93_first_partial",
    "FF.C93_regular",
    "FF.C93_false"
   ],
   "note": "The code takes the first of all lines that begin with #!, not only the first line of the file (C93_false). C93_some says what it does for every file; C93_first_partial is the property for files that begin with #! or have no line that does."
  },
  {
   "property": "C94",
   "status": "partial",
   "theorems": [
    "FF.C94_dots",
    "FF.C94_imports_partial",
    "FF.C94_sorted",
    "FF.C94_found_partial",
    "FF.C94_several_false",
    "FF.C94_package_false",
    "FF.C94_dots_false",
    "FF.C94_handled"
   ],
   "note": "Of `import a, b` only a is reported, `from . import x` not at all, and with two or more dots the name is wrong (C94_several_false, C94_package_false, C94_dots_false). C94_imports_partial is the property for the other statements; C94_dots says which names are given with dots."
  },
  {
   "property": "C95",
   "status": "proved",
   "theorems": [
    "FF.C95_tags",
    "FF.C95_size",
    "FF.C95_format",
    "FF.C95_duration"
   ],
   "note": "Durations are whole milliseconds in the model."
  },
  {
   "property": "C96",
   "status": "partial",
   "theorems": [
    "FF.C96_installed_partial",
    "FF.C96_relative_false",
    "FF.C96_witness_false",
    "FF.C96_blank_false"
   ],
   "note": "Files found under relative paths are never reported as installed (C96_relative_false), paths that end in white space are misread (C96_blank_false). C96_installed_partial is the property for absolute paths."
  },
  {
   "property": "C97",
   "status": "partial",
   "theorems": [
    "FF.C97_regular_partial",
    "FF.C97_names_partial",
    "FF.C97_false"
   ],
   "note": "The plugins py, tar, medium and ignore open named pipes (C97_false); the others do not (C97_regular_partial)."
  },
  {
   "property": "C98",
   "status": "partial",
   "theorems": [
    "FF.C98_fault_partial",
    "FF.C98_read",
    "FF.C98_format_false",
    "FF.C98_shake_false",
    "FF.C98_fs_false"
   ],
   "note": "Archives that are none, ignore files that are not text, the sums shake_128 and shake_256, and directories that vanish while fs is used end the search (C98_format_false, C98_shake_false, C98_fs_false)."
  },
  {
   "property": "C99",
   "status": "partial",
   "theorems": [
    "FF.C99_field",
    "FF.C99_test_attribute",
    "FF.C99_test_expression",
    "FF.C99_test_usage",
    "FF.C99_first",
    "FF.C99_attribute",
    "FF.C99_expression",
    "FF.C99_fields",
    "FF.C99_tests",
    "FF.C99_begins",
    "FF.C99_shown",
    "FF.C99_one_false",
    "FF.C99_reference_false"
   ],
   "note": "An unknown attribute in a reference gives status 2 (C99_reference_false); unbalanced brackets in exclude tests and missing directories give 1 (C99_one_false). C99_attribute and C99_expression are the property for 11 and 12 from the status to the fault, C99_fields and C99_tests from the first fault to the status, C99_begins and C99_shown are about no status and 0. Missing modules of plugins (status 10) are not modelled."
  },
  {
   "property": "C100",
   "status": "partial",
   "theorems": [
    "FF.C100_warnings",
    "FF.C100_tree",
    "FF.C100_only",
    "FF.C100_all_partial",
    "FF.C100_deep_false"
   ],
   "note": "Soundness, the tree that is seen and the warnings are proved (C100_only, C100_tree, C100_warnings). That all of it is found holds for executions in which no worker stops early, as in C07 (C100_all_partial). Directories with paths of 4096 bytes and more are not searched (C100_deep_false). The file system does not change during the search."
  },
  {
   "property": "C101",
   "status": "partial",
   "theorems": [
    "FF.C101_not_entered",
    "FF.C101_examined",
    "FF.C101_broken_false",
    "FF.C101_loop_false"
   ],
   "note": "Proved: without -L no link is entered (C101_not_entered), with -L links count as what they lead to (C101_examined). False: with -L broken links are not reported at all (C101_broken_false), and a directory with two links to itself has more than 2^40 entries (C101_loop_false)."
  },
  {
   "property": "C102",
   "status": "partial",
   "theorems": [
    "FF.C102_same_partial",
    "FF.C102_and_partial",
    "FF.C102_or_partial",
    "FF.C102_not_partial",
    "FF.C102_dirs_partial",
    "FF.C102_exclude_partial"
   ],
   "note": "Proved for runs that end with results (Results), for all command lines and interleavings, under the assumption of C85 and C87 that the queue is found empty only when nothing is under way."
  },
  {
   "property": "C103",
   "status": "partial",
   "theorems": [
    "FF.C103_files_partial",
    "FF.C103_table",
    "FF.C103_broken_false",
    "FF.C103_hidden_false",
    "FF.C103_order_false",
    "FF.C103_twice_false",
    "FF.C103_again_false"
   ],
   "note": "Proved if every plugin file can be executed and every entry examined (C103_files_partial), and that the table of attributes is that of the loaded plugins (C103_table). False: a file that cannot be executed makes loading fail for all (C103_broken_false), an entry that cannot be examined hides the files after it (C103_hidden_false), the order of classes matters (C103_order_false), attributes given twice with different types crash (C103_twice_false), and a second Find after a failure goes on without attributes (C103_again_false)."
  },
  {
   "property": "C104",
   "status": "partial",
   "theorems": [
    "FF.C104_unused",
    "FF.C104_only",
    "FF.C104_loading",
    "FF.C104_used",
    "FF.C104_loading_false",
    "FF.C104_reference_false"
   ],
   "note": "Proved: plugins that are not used do not matter (C104_unused), status 10 has no other reason (C104_only), and fields for output, sorting and counting, placeholders of commands and tests of such a plugin lead to status 10 (C104_used). False: a plugin file that fails to load ends every run (C104_loading, C104_loading_false), and inside of a reference the status is 2 (C104_reference_false)."
  },
  {
   "property": "C105",
   "status": "partial",
   "theorems": [
    "FF.C105_content",
    "FF.C105_unreadable",
    "FF.C105_shake_false"
   ],
   "note": "Proved for every algorithm with sums of a fixed length (C105_content) and for files that cannot be read (C105_unreadable). False for shake_128 and shake_256, which are offered (C105_shake_false)."
  },
  {
   "property": "C106",
   "status": "partial",
   "theorems": [
    "FF.C106_complete",
    "FF.C106_lines",
    "FF.C106_word_partial",
    "FF.C106_once",
    "FF.C106_narrow_false",
    "FF.C106_width",
    "FF.C106_name_false",
    "FF.C106_hyphen_false"
   ],
   "note": "Proved for all messages if the terminal has more than two columns (C106_complete, C106_lines, C106_width, C106_once); that a name is not broken for words without hyphens (C106_word_partial). False: with one or two columns each message ends in an exception (C106_narrow_false), a line break in a name looks like a blank (C106_name_false), names are broken after hyphens (C106_hyphen_false)."
  },
  {
   "property": "C107",
   "status": "partial",
   "theorems": [
    "FF.C107_ff",
    "FF.C107_complete",
    "FF.C107_argument_partial",
    "FF.C107_named",
    "FF.C107_remainder_false",
    "FF.C107_narrow_false"
   ],
   "note": "Proved: all options with all spellings and complete texts, for widths above two columns (C107_complete, with the help texts of ff C107_ff); names of arguments but for -x and -X (C107_argument_partial, C107_named). False: the help does not tell that -x and -X need a command (C107_remainder_false); there is no help with COLUMNS=2 (C107_narrow_false)."
  },
  {
   "property": "C108",
   "status": "partial",
   "theorems": [
    "FF.C108_test",
    "FF.C108_output_partial",
    "FF.C108_order_false",
    "FF.C108_json_false",
    "FF.C108_sort_false",
    "FF.C108_order_of_archives_false",
    "FF.C108_archives_partial",
    "FF.C108_xattr",
    "FF.C108_xattr_unreadable_partial",
    "FF.C108_xattr_false"
   ],
   "note": "Proved: tests (C108_test), the set of names that is printed (C108_output_partial), extended attributes if all can be read, else those before the first that cannot (C108_xattr, C108_xattr_unreadable_partial). False: the order in which the members are printed (C108_order_false), JSON (C108_json_false), sorting (C108_sort_false, C108_order_of_archives_false), attributes after one that cannot be read (C108_xattr_false)."
  },
  {
   "property": "C109",
   "status": "partial",
   "theorems": [
    "FF.C109_table",
    "FF.C109_unknown",
    "FF.C109_remote_partial",
    "FF.C109_local",
    "FF.C109_remote_false",
    "FF.C109_file_partial",
    "FF.C109_mount_false",
    "FF.C109_error_false"
   ],
   "note": "Proved: types in the table and others (C109_table, C109_unknown), directories and files on the file system of their directory (C109_file_partial), common network and local file systems (C109_remote_partial, C109_local). False for files that are mount points (C109_mount_false) and if the system gives an error, which ends the search (C109_error_false); a cifs mount with version 2 or 3 of the protocol is not remote (C109_remote_false)."
  },
  {
   "property": "C110",
   "status": "partial",
   "theorems": [
    "FF.C110_whole_partial",
    "FF.C110_paths",
    "FF.C110_complete_partial",
    "FF.C110_bytes",
    "FF.C110_single",
    "FF.C110_long_false",
    "FF.C110_end_false",
    "FF.C110_terminal_false"
   ],
   "note": "Proved for lines of at most 4096 bytes with their end, in particular for paths (C110_whole_partial, C110_complete_partial, C110_paths), and for lines of all lengths that nothing is lost (C110_bytes) and that a single job's output is exact (C110_single). False for longer lines in a pipe (C110_long_false, C110_end_false) and, on a terminal, for names with line feeds (C110_terminal_false)."
  },
  {
   "property": "C111",
   "status": "partial",
   "theorems": [
    "FF.C111_attributes_partial",
    "FF.C111_plugin_partial",
    "FF.C111_types_partial",
    "FF.C111_plugins_partial",
    "FF.C111_shown",
    "FF.C111_doc_false",
    "FF.C111_quote_false",
    "FF.C111_backslash_false"
   ],
   "note": "Proved for texts without backslashes whose paragraphs do not begin with a dot or an apostrophe, and names without quotes (C111_attributes_partial, C111_plugin_partial, C111_types_partial, C111_plugins_partial); the pages of all plugins and types are shown exactly if all are described (C111_shown). False for one plugin without a docstring (C111_doc_false), for a paragraph that begins with an apostrophe (C111_quote_false) and for backslashes (C111_backslash_false)."
  },
  {
   "property": "C112",
   "status": "proved",
   "theorems": [
    "FF.C112_text",
    "FF.C112_option",
    "FF.C112_included"
   ],
   "note": "For the template of ff and its help texts as they are: all of the template and of what is included (C112_text), every option (C112_option), the usage, the patterns for times and the exit statuses (C112_included). manual_shown and ffManual_shown are the same for other templates and help texts, without backslashes and leading dots or apostrophes."
  },
  {
   "property": "C113",
   "status": "partial",
   "theorems": [
    "FF.C113_false",
    "FF.C113_number_false",
    "FF.C113_times_partial"
   ],
   "note": "False for six of the eight patterns: values written like those that begin with YY-mm-dd are refused (C113_false), values written like those of letters only are taken for seconds (C113_number_false). Proved for HH:MM and HH:MM:SS (C113_times_partial)."
  },
  {
   "property": "C114",
   "status": "partial",
   "theorems": [
    "FF.C114_interrupt_false",
    "FF.C114_start",
    "FF.C114_end",
    "FF.C114_meaning",
    "FF.C114_described",
    "FF.C114_one_false"
   ],
   "note": "False: status 1 is also that of a run without --fail if the exclude test is an unbalanced bracket (C114_one_false) or if it is interrupted from the keyboard (C114_interrupt_false). Proved: all statuses before and after the search are 0 or in the manual (C114_start, C114_end), those after the search mean what the manual says (C114_meaning), whose descriptions are those of C114_described."
  },
  {
   "property": "C115",
   "status": "partial",
   "theorems": [
    "FF.C115_collected",
    "FF.C115_status_partial",
    "FF.C115_status_false",
    "FF.C115_kinds",
    "FF.C115_immediate",
    "FF.C115_immediate_partial",
    "FF.C115_immediate_false"
   ],
   "note": "The first half is proved: the reader receives the beginning of the output, as much as it takes (C115_collected, C115_kinds, C115_immediate). The second half is false: if the reader does not take everything, the status is 120 for collected results, since the final flush of standard output fails (C115_status_false), and 4 if workers print (C115_immediate_false); it is proved only for readers that take all (C115_status_partial, C115_immediate_partial)."
  },
  {
   "property": "C116",
   "status": "partial",
   "theorems": [
    "FF.C116_part_partial",
    "FF.C116_avoided_partial"
   ],
   "note": "Proved (C116_part_partial, C116_avoided_partial) for runs that end with results (Results), under the assumption of C85 and C87 that the queue is found empty only when nothing is under way; both searches see the same file system, which does not change."
  },
  {
   "property": "C117",
   "status": "partial",
   "theorems": [
    "FF.C117_exact_partial",
    "FF.C117_found_partial",
    "FF.C117_time_partial",
    "FF.C117_mode_false",
    "FF.C117_duration_false",
    "FF.C117_list_false",
    "FF.C117_name_false"
   ],
   "note": "Proved for texts in one line that do not begin with a blank and do not look like a reference, file types, Booleans, numbers, sizes, times, durations with the modifier h and modes with the modifier o (C117_exact_partial, C117_found_partial), and for times with h unless clocks show them twice (C117_time_partial). False for modes (C117_mode_false: printed in base 10, read in base 8; as shown by ls they are misread), for durations (C117_duration_false: printed in seconds, read in minutes), for lists (C117_list_false) and the other texts (C117_name_false). Human-readable sizes are rounded, see C68."
  },
  {
   "property": "C118",
   "status": "partial",
   "theorems": [
    "FF.C118_enough",
    "FF.C118_needed",
    "FF.C118_once",
    "FF.C118_order",
    "FF.C118_exclude",
    "FF.C118_slow_partial",
    "FF.C118_brackets_false",
    "FF.C118_alternatives_false"
   ],
   "note": "C118_enough, C118_needed, C118_once (all queries), C118_order and C118_exclude are exact; C118_slow_partial is about queries without brackets and compares alternatives by the sum of their speeds. C118_brackets_false and C118_alternatives_false show that a slow test is made before faster ones that are in brackets or in another alternative."
  },
  {
   "property": "C119",
   "status": "partial",
   "theorems": [
    "FF.C119_arguments",
    "FF.C119_installed_partial",
    "FF.C119_safe",
    "FF.C119_taken",
    "FF.C119_false"
   ],
   "note": "C119_arguments is the part about the words; C119_installed_partial and C119_safe: for directories without files or directories named like modules, and with PYTHONSAFEPATH. C119_taken and C119_false: python -m puts the current directory first, so a file ff.py there is executed instead of ff. Modules that are part of the interpreter and packages without __init__ are not modelled."
  },
  {
   "property": "C120",
   "status": "partial",
   "theorems": [
    "FF.C120_names_partial",
    "FF.C120_only",
    "FF.C120_sections",
    "FF.C120_stripped_false"
   ],
   "note": "C120_names_partial: for files whose sections describe the program; C120_sections says what is given for all others, C120_only which files have the attribute. C120_stripped_false: programs without a section table are said to need nothing. pyelftools is not modelled: its sections are given."
  },
  {
   "property": "C121",
   "status": "partial",
   "theorems": [
    "FF.C121_current_partial",
    "FF.C121_uncached",
    "FF.C121_stale",
    "FF.C121_second_false",
    "FF.C121_unreadable_false",
    "FF.C121_link_false"
   ],
   "note": "C121_current_partial: for regular files, if two contents of a file are never written in the same second; C121_uncached: always with --no-cache. C121_stale: every change that leaves the modification time of the entry in the same second goes unnoticed, e.g. files written twice within a second (C121_second_false), files that could not be read before (C121_unreadable_false), and all changes of files that tar and medium read through a symbolic link (C121_link_false)."
  },
  {
   "property": "C122",
   "status": "partial",
   "theorems": [
    "FF.C122_path_partial",
    "FF.C122_own",
    "FF.C122_string_partial",
    "FF.C122_false",
    "FF.C122_directory_false"
   ],
   "note": "C122_own: all patterns that do not end in '**' on path and relpath; C122_path_partial: on other path attributes patterns with a slash at the beginning or in the middle; C122_string_partial: on text attributes patterns without slashes. C122_false: patterns without slashes on dir, link and namex are applied to the name of the entry instead of the value. C122_directory_false: name%src/ does not find the directory src. Patterns that do not compile are not covered."
  },
  {
   "property": "C123",
   "status": "partial",
   "theorems": [
    "FF.C123_files",
    "FF.C123_recent",
    "FF.C123_links",
    "FF.C123_executable",
    "FF.C123_rwx_partial",
    "FF.C123_exec_partial",
    "FF.C123_video",
    "FF.C123_txt",
    "FF.C123_executable_false",
    "FF.C123_newer_false",
    "FF.C123_substring_false"
   ],
   "note": "C123_files, C123_recent, C123_links, C123_executable, C123_video (both forms) and C123_txt are exact; C123_rwx_partial and C123_exec_partial say what perm:700 and exec=yes find. C123_executable_false: the three forms for executable files differ. C123_newer_false: newer and bigger include equal. C123_substring_false: members:setup.py and lines:foo find other names and FOO. Examples with --sort, --output, --exec are covered by other properties, the git and mime ones are not."
  },
  {
   "property": "C124",
   "status": "partial",
   "theorems": [
    "FF.C124_order_partial",
    "FF.C124_last",
    "FF.C124_collected",
    "FF.C124_false"
   ],
   "note": "C124_order_partial: all rearrangements that can be spelled without an option whose optional argument is left out before a test, and with tests and directories together; errors may be of a different kind. C124_last and C124_collected without exception. C124_false: `-S name=x` sorts by name=x instead of testing, and options between tests are refused."
  },
  {
   "property": "C125",
   "status": "partial",
   "theorems": [
    "FF.C125_plan",
    "FF.C125_results_partial",
    "FF.C125_false"
   ],
   "note": "C125_plan: -H and --one-file-system equal their exclude tests in everything but the order of exclude tests; C125_results_partial: the results are the same, also for -I if --no-parent-ignore is given. C125_false: with -I alone the ignore files of the directories above count, with --exclude ignored=yes they do not."
  },
  {
   "property": "C126",
   "status": "proved",
   "theorems": [
    "FF.C126_reads",
    "FF.C126_accepted",
    "FF.C126_exact",
    "FF.C126_ff",
    "FF.C126_spells",
    "FF.C126_unknown",
    "FF.C126_more"
   ],
   "note": "C126_exact, C126_ff: accepted exactly if the words can be read as options of the table with their arguments and a group of tests, with the same effect; C126_unknown: a word that is no option is refused. C126_more: this is more than the documented spellings of C52 (--sort=-H hides files, -xls runs the command -l)."
  },
  {
   "property": "C127",
   "status": "partial",
   "theorems": [
    "FF.C127_setting",
    "FF.C127_plain",
    "FF.C127_coloured_partial",
    "FF.C127_json"
   ],
   "note": "C127_setting, C127_plain, C127_coloured_partial, C127_json. Missing: colours asked for while LS_COLORS is not set, when entries are not printed (C32_false)."
  },
  {
   "property": "C128",
   "status": "partial",
   "theorems": [
    "FF.C128_sorted_partial",
    "FF.C128_limited_partial",
    "FF.C128_count_partial",
    "FF.C128_json_partial"
   ],
   "note": "C128_sorted_partial, C128_limited_partial, C128_count_partial, C128_json_partial. Missing: sorting that ends with an exception (C37_missing_false), --count without results (C39_false), and the conditions of C102."
  },
  {
   "property": "C129",
   "status": "partial",
   "theorems": [
    "FF.C129_warned_partial",
    "FF.C129_hide_partial",
    "FF.C129_hidden_partial",
    "FF.C129_no_effect_partial",
    "FF.C129_nothing_partial",
    "FF.C129_false"
   ],
   "note": "C129_warned_partial: one warning iff -H and a test about hide or hidden; C129_hide_partial, C129_hidden_partial, C129_no_effect_partial, C129_nothing_partial: what the tests are worth. Missing: messages before an expression is refused; start directories with a part that begins with a dot: C129_false: `ff -H -D .. hidden=no` finds nothing, without the test it finds something."
  },
  {
   "property": "C130",
   "status": "partial",
   "theorems": [
    "FF.C130_sound",
    "FF.C130_status",
    "FF.C130_complete_partial",
    "FF.C130_exit",
    "FF.C130_exec",
    "FF.C130_batch",
    "FF.C130_bounded",
    "FF.C130_no_deadlock",
    "FF.C130_find_false",
    "FF.C130_find_partial"
   ],
   "note": "C130_sound, C130_status, C130_exit, C130_exec, C130_batch, C130_bounded, C130_no_deadlock; C130_complete_partial under the timing assumptions of C11; C130_find_partial. C130_find_false: iterating over a Find object ends without an exception although a process has failed and results are missing."
  },
  {
   "property": "C131",
   "status": "partial",
   "theorems": [
    "FF.C131_hang",
    "FF.C131_all_or_none",
    "FF.C131_false",
    "FF.C131_progress",
    "FF.C131_no_deadlock",
    "FF.C131_assertions"
   ],
   "note": "C131_all_or_none: once a process has passed the barrier none is or will be sent back. C131_progress, C131_no_deadlock: if none is killed, they can always all pass, from every state. C131_assertions: no AssertionError in Condition.notify. C131_hang: after a process has been killed while it waits, the main process never comes back from barrier_wait, in every execution; C131_false: an execution that ends in a standstill."
  },
  {
   "property": "C132",
   "status": "partial",
   "theorems": [
    "FF.C132_sound",
    "FF.C132_commands",
    "FF.C132_ends",
    "FF.C132_collected",
    "FF.C132_queued_false",
    "FF.C132_pool_partial",
    "FF.C132_pool_false",
    "FF.C132_status",
    "FF.C132_running_false"
   ],
   "note": "While results are printed or commands are run during the search: C132_sound, C132_commands, C132_ends. While results are collected: C132_collected. While commands for sorted results are run: C132_pool_partial, if all of them have been made; C132_pool_false, C132_queued_false: otherwise all that have been made are still run. C132_status. C132_running_false: commands that are run during the search ignore the interrupt."
  },
  {
   "property": "C133",
   "status": "proved",
   "theorems": [
    "FF.C133_typed",
    "FF.C133_present",
    "FF.C133_mount"
   ],
   "note": "C133_typed, C133_present, C133_mount. The name of the file must not be empty, which holds for all entries of directories."
  },
  {
   "property": "C134",
   "status": "partial",
   "theorems": [
    "FF.C134_check",
    "FF.C134_plugins",
    "FF.C134_medium_partial",
    "FF.C134_medium_false",
    "FF.C134_search",
    "FF.C134_sorted"
   ],
   "note": "C134_check: what the check accepts. C134_plugins: the plugins fs, git, hash, elf, shebang, py, pacman, tar, xattr, grep, mime and ignore, for all files. C134_search: the values in a search have the types of the attributes; C134_sorted: so sorting without the modifier v never fails. C134_medium_partial: if pymediainfo gives texts for tags and numbers for sizes and durations; C134_medium_false: a tag that pymediainfo makes a number ends the search in debug mode."
  },
  {
   "property": "C135",
   "status": "partial",
   "theorems": [
    "FF.C135_first",
    "FF.C135_sound",
    "FF.C135_running_false",
    "FF.C135_sorted_partial",
    "FF.C135_lost_false",
    "FF.C135_chunk_false",
    "FF.C135_closed_false"
   ],
   "note": "C135_sound: nothing is yielded twice or without being asked for, over all iterations without sort. C135_first: the first iteration is that of C11 and C88. C135_sorted_partial: with sort, under the timing assumptions of C11. False: the rest of a chunk is lost (C135_chunk_false), a second iteration can end while processes of the first still work (C135_lost_false), an object that has been iterated over to the end gives a ValueError (C135_closed_false), and the processes go on for ever when an iteration is given up (C135_running_false)."
  },
  {
   "property": "C136",
   "status": "partial",
   "theorems": [
    "FF.C136_sound",
    "FF.C136_complete_partial",
    "FF.C136_progress",
    "FF.C136_false"
   ],
   "note": "C136_sound at any moment; C136_complete_partial if a queue is found empty only when nothing is under way (C136_false otherwise), without the other assumption of C11; C136_progress: there is always a next step until the end."
  },
  {
   "property": "C137",
   "status": "partial",
   "theorems": [
    "FF.C137_attributes",
    "FF.C137_tests",
    "FF.C137_same_partial",
    "FF.C137_paths_partial",
    "FF.C137_hidden_false",
    "FF.C137_ignore_false"
   ],
   "note": "C137_same_partial, C137_paths_partial (each path as often): for all runs, also with JSON, which has the same effect, without -I or with --no-parent-ignore, if stat and the plugins do not depend on how the search directory is written; C137_attributes, C137_tests: attributes and tests. False for -I alone: the ignore file of the parent directory is used without --absolute-path and not with it (C137_ignore_false). C137_hidden_false: why hidden is an exception."
  },
  {
   "property": "C138",
   "status": "partial",
   "theorems": [
    "FF.C138_fewer_partial",
    "FF.C138_reason_partial",
    "FF.C138_ignore_partial"
   ],
   "note": "C138_fewer_partial, C138_reason_partial: for all runs, -I only with --no-parent-ignore or if both have it. C138_ignore_partial: with -I alone, if the tests are not about ignore files; tests for the attributes of the ignore plugin are missing there."
  }
 ]
}