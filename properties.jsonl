{"id": "C01", "title": "Expressions have Boolean semantics with NOT > AND > OR", "statement": "For every well-formed test expression given on the command line or to Find(), built from tests, explicit or implied AND, OR, NOT and either bracket style nested to any depth, an entry is selected exactly when the expression is true as a Boolean formula of its single tests, NOT binding tighter than AND and AND tighter than OR; keyword case and redundant ANDs are irrelevant.", "quantifier": "all syntax trees of the expression language, all spellings of each tree as tokens, all truth assignments to tests", "why_tests_cant": "Expressions nest without bound and the parser mutates shared token and sequence lists; only induction over syntax covers all of them.", "anchors": ["libff/parser.py:Parser.parse", "libff/parser.py:Parser.parse_sequence", "libff/parser.py:Parser.parse_bracket_sequence", "libff/filter.py:Matcher.test", "libff/filter.py:Matcher._test"]}
{"id": "C02", "title": "Malformed expressions are rejected, never evaluated", "statement": "Any token sequence with unbalanced brackets, an empty bracket, an empty alternative next to OR, or NOT not followed by a test or bracket is refused with a usage error instead of being evaluated.", "quantifier": "all token sequences", "why_tests_cant": "Malformed inputs are infinitely many and of unbounded depth.", "anchors": ["libff/parser.py:Parser.parse", "libff/parser.py:Parser.parse_sequence"]}
{"id": "C03", "title": "Speed optimisation of tests does not change results", "statement": "Reordering tests and sub-expressions by plugin speed never changes which entries an expression selects.", "quantifier": "all expressions, all speed assignments, all truth assignments", "why_tests_cant": "The reordering is data dependent and recursive.", "anchors": ["libff/parser.py:Parser.optimize", "libff/parser.py:Parser.get_speed_score", "libff/filter.py:Matcher._test"]}
{"id": "C04", "title": "NOT selects exactly the complement; missing attributes fail a test", "statement": "Every entry is selected by exactly one of an expression E and 'not ( E )'; a test on an attribute the entry does not provide is false, hence its negation is true.", "quantifier": "all expressions, all entries, all sets of missing attributes", "why_tests_cant": "The domain is infinite; tests sample it.", "anchors": ["libff/filter.py:Matcher._test", "libff/registry.py:Registry.get_attribute_and_type"]}
{"id": "C05", "title": "A test string splits into attribute, operator, reference and value as written", "statement": "For every attribute name (with or without plugin), every operator spelling and every value, the string attribute+operator+value is read back as exactly that attribute, that operator (with > and < spelled + and -) and that value, whenever the value does not begin with white space, '=' after a one-character ordering operator, or a '{...}' reference.", "quantifier": "all attribute names, operators and values", "why_tests_cant": "The regular expression backtracks; correctness must hold for all strings.", "anchors": ["libff/parser.py:Parser.expression_regex", "libff/parser.py:Parser.parse_test"]}
{"id": "C06", "title": "An entry is excluded iff one of the --exclude tests matches it", "statement": "With any list of flat --exclude tests an entry is excluded exactly when at least one of them is true for it, whatever their order or speed; a test on an attribute the entry lacks never excludes it; with no exclude tests nothing is excluded.", "quantifier": "all lists of exclude tests, all entries", "why_tests_cant": "The domain is infinite; tests sample it.", "anchors": ["libff/filter.py:Excluder.test", "libff/filter.py:Excluder.test_empty", "libff/filter.py:Filter.is_empty"]}
{"id": "C07", "title": "Every schedule reports each matching entry exactly once", "statement": "For every directory tree, every number of worker processes, every interleaving of their steps and every decision to hand work to idle workers, when the search ends normally the multiset of entries handed to processing is exactly the set of entries selected by the search, each once.", "quantifier": "all finite trees, all job counts, all interleavings of worker steps", "why_tests_cant": "Interleavings are unbounded and not reproducible by tests.", "anchors": ["libff/walk.py:FilesystemWalker.loop", "libff/walk.py:FilesystemWalker.process_directory", "libff/walk.py:FilesystemWalker.process_entries", "libff/context.py:Context.barrier_wait"]}
{"id": "C08", "title": "Exclusion prunes whole subtrees and nothing else", "statement": "An entry is reported iff it matches the expression and neither it nor any of its ancestor directories below the start directory is excluded; directories that merely do not match are still descended into.", "quantifier": "all trees, all exclude and match predicates", "why_tests_cant": "The domain is infinite; tests sample it.", "anchors": ["libff/walk.py:FilesystemWalker.process_entries"]}
{"id": "C09", "title": "-H/--hide hides exactly entries with a hidden component below the start directory", "statement": "With -H an entry is reported iff it would be reported without -H and no component of its path relative to the start directory starts with a dot.", "quantifier": "all trees and names", "why_tests_cant": "The domain is infinite; tests sample it.", "anchors": ["libff/arguments.py:ArgumentsPostProcessor.process_arguments", "libff/entry.py:Entry.hide", "libff/walk.py:FilesystemWalker.process_entries"]}
{"id": "C10", "title": "--depth reports exactly the entries at the requested depths", "statement": "With -d RANGES and any expression, an entry is selected iff its depth lies in one of the ranges and it matches the expression; the pruning below the deepest range never loses such an entry.", "quantifier": "all range lists, all expressions, all trees", "why_tests_cant": "Ranges, depths and expressions are unbounded.", "anchors": ["libff/arguments.py:ArgumentsPostProcessor.process_depth_argument", "libff/argparse.py:type_ranges", "libff/entry.py:Entry.depth"]}
{"id": "C11", "title": "Collected results are complete when the search terminates", "statement": "When sorting, counting, limiting or iterating with Find(), the main process ends its collection only after it has received every entry the workers sent.", "quantifier": "all interleavings of worker, queue and main process steps", "why_tests_cant": "The window is a race between a queue poll and a barrier.", "anchors": ["libff/processing.py:CollectiveMixin.loop", "libff/processing.py:ImmediateGenerator.__iter__", "libff/processing.py:BaseProcessing.processing_done", "libff/context.py:Context.barrier_wait"]}
{"id": "C12", "title": "Chunking and load sharing partition the work", "statement": "Splitting directories, entries and results into chunks for other processes keeps every element exactly once and in order, for every list length and job count.", "quantifier": "all lists, all job counts", "why_tests_cant": "The domain is infinite; tests sample it.", "anchors": ["libff/walk.py:FilesystemWalker.process_entries"]}
{"id": "C13", "title": "The last matching ignore pattern decides", "statement": "For every sequence of ignore files and patterns, an entry is ignored iff the last pattern (outermost file first, top to bottom) that matches it is not negated; compiling neighbouring patterns into groups does not change that, and the reported ignore file is the one holding that pattern.", "quantifier": "all ignore files, all pattern lists, all paths", "why_tests_cant": "The domain is infinite; tests sample it.", "anchors": ["libff/ignore.py:GitIgnore.__init__", "libff/ignore.py:GitIgnore.match"]}
{"id": "C14", "title": "Glob wildcards match as documented in gitignore(5)", "statement": "In glob patterns '?' matches one character other than '/', '*' any run of characters other than '/', a leading '**/' zero or more directories, '/**/' zero or more directories in the middle, a trailing '/**' everything inside, and all other characters match themselves.", "quantifier": "all patterns, all paths", "why_tests_cant": "The domain is infinite; tests sample it.", "anchors": ["libff/ignore.py:Glob.translate", "libff/ignore.py:Glob.match"]}
{"id": "C15", "title": "Anchoring, directory-only and negation markers of glob patterns", "statement": "A pattern with a slash not at its end is matched against the whole relative path, otherwise against the basename; a trailing slash restricts it to directories; a leading '!' inverts it; leading '\\#' and '\\!' are literal.", "quantifier": "all patterns, all paths", "why_tests_cant": "The domain is infinite; tests sample it.", "anchors": ["libff/ignore.py:Glob.translate", "libff/ignore.py:Glob.match"]}
{"id": "C16", "title": "Ignore files apply only below their own directory, deeper files override", "statement": "A pattern from an ignore file in directory D can only affect entries below D, is matched against paths relative to D, and is overridden by matching patterns of ignore files in deeper directories.", "quantifier": "all trees, all placements of ignore files", "why_tests_cant": "The domain is infinite; tests sample it.", "anchors": ["libff/walk.py:FilesystemWalker.scan_directory", "libff/builtin/ignore.py:Ignore.get_ignores", "libff/ignore.py:GitIgnore.match"]}
{"id": "C17", "title": "Ignoring does not depend on directory listing order", "statement": "Whether an entry is ignored does not depend on the order in which the operating system lists the directory: every entry sees all ignore files of its directory, even those listed after it.", "quantifier": "all directory listing orders", "why_tests_cant": "Listing order is chosen by the filesystem.", "anchors": ["libff/walk.py:FilesystemWalker.scan_directory"]}
{"id": "C18", "title": "Ignore files of all parent directories are honoured", "statement": "With -I the ignore files of every directory above the start directory apply, outermost first.", "quantifier": "all start paths and working directories", "why_tests_cant": "The domain is infinite; tests sample it.", "anchors": ["libff/ignore.py:GitIgnore.from_parent_directories", "libff/main.py:_Base.setup_walker"]}
{"id": "C19", "title": "Number operators are the arithmetic order", "statement": "For number-like attributes exactly one of '-', '=' and '+' is true for any value, and '+=' / '-=' are their unions with '='; the spellings >, >=, <, <= are equivalent.", "quantifier": "all integers", "why_tests_cant": "The domain is infinite; tests sample it.", "anchors": ["libff/type.py:Number.test", "libff/parser.py:Parser.parse_test"]}
{"id": "C20", "title": "File mode operators compare permission bits as documented", "statement": "'=' is true iff the 12 permission bits are equal to the value, ':' iff every bit of the value is set, '~' iff at least one bit of the value is set; file type bits are irrelevant.", "quantifier": "all mode words and values", "why_tests_cant": "The domain is infinite; tests sample it.", "anchors": ["libff/type.py:Mode.test", "libff/type.py:Mode.MODE_ALL"]}
{"id": "C21", "title": "Mode values parse as octal or chmod-style symbolic notation", "statement": "An octal value denotes its low 12 bits; a comma-separated list of symbolic clauses denotes the bits chmod would set starting from zero.", "quantifier": "all mode strings", "why_tests_cant": "The domain is infinite; tests sample it.", "anchors": ["libff/type.py:Mode.parse_mode"]}
{"id": "C22", "title": "Durations round-trip through the human-readable form", "statement": "For every number of seconds n, parsing the human-readable rendering of n gives n; and for every sequence of count/unit pairs the parsed duration is the sum of its parts.", "quantifier": "all natural numbers, all sequences of count/unit pairs", "why_tests_cant": "The domain is infinite; tests sample it.", "anchors": ["libff/convert.py:format_duration", "libff/convert.py:parse_duration"]}
{"id": "C23", "title": "Malformed durations are rejected", "statement": "A duration string that is neither a plain integer nor a sequence of count/unit pairs with documented units is rejected.", "quantifier": "all strings", "why_tests_cant": "The domain is infinite; tests sample it.", "anchors": ["libff/convert.py:parse_duration", "libff/convert.py:regex_duration"]}
{"id": "C24", "title": "File sizes parse exactly", "statement": "A plain number (with optional b) denotes that many bytes; a number with a unit X or XiB denotes number*1024^k and XB number*1000^k, case being irrelevant; a fraction without unit and anything else is rejected.", "quantifier": "all size strings", "why_tests_cant": "The domain is infinite; tests sample it.", "anchors": ["libff/convert.py:parse_size"]}
{"id": "C25", "title": "Documented date patterns take precedence over epoch seconds", "statement": "A time value matching one of the documented date/time patterns is read as that date; a plain number is read as epoch seconds only if no pattern matches.", "quantifier": "all time strings", "why_tests_cant": "The domain is infinite; tests sample it.", "anchors": ["libff/convert.py:parse_time", "libff/convert.py:time_formats", "libff/manpage.template"]}
{"id": "C26", "title": "Boolean values outside the documented spellings are rejected", "statement": "true,t,1,yes,y,on / false,f,0,no,n,off in any case are read as such and every other value is refused.", "quantifier": "all strings", "why_tests_cant": "The domain is infinite; tests sample it.", "anchors": ["libff/type.py:Boolean.input", "bin/ff"]}
{"id": "C27", "title": "Smart case: lower-case patterns ignore case, others are exact", "statement": "With --case smart a string test whose value contains no upper-case letter gives the same answer for attribute values differing only in case, and one that does compares exactly; --case ignore and sensitive do so unconditionally.", "quantifier": "all patterns and values", "why_tests_cant": "The domain is infinite; tests sample it.", "anchors": ["libff/parser.py:Parser.create_test", "libff/type.py:String.test"]}
{"id": "C28", "title": "A list-of-strings test is true iff one element satisfies it", "statement": "A test on a list attribute holds iff it holds for at least one of its strings, for each of the four string operators.", "quantifier": "all lists, all tests", "why_tests_cant": "The domain is infinite; tests sample it.", "anchors": ["libff/type.py:ListOfStrings.test", "libff/type.py:String.test"]}
{"id": "C29", "title": "-0 output is unambiguous", "statement": "With -0 the sequence of printed path names can be recovered exactly from the output bytes, for all file names.", "quantifier": "all sequences of file names", "why_tests_cant": "File names may contain any character but NUL and '/'.", "anchors": ["libff/console.py:Console._write_line", "libff/console.py:Console.process"]}
{"id": "C30", "title": "--json prints one well-formed list of all records, --jsonl one record per line", "statement": "For any number of results (including none) --json output is '[' followed by the records separated by commas and ']' and --jsonl output is each record followed by a newline, in result order, none missing.", "quantifier": "all result sequences", "why_tests_cant": "The domain is infinite; tests sample it.", "anchors": ["libff/console.py:JsonConsole", "libff/console.py:JsonlConsole"]}
{"id": "C31", "title": "A record is printed iff no requested attribute is missing", "statement": "Without --all an entry is printed iff every output field without the n modifier has a value; with --all every entry is printed; missing values print as empty fields and as null in JSON.", "quantifier": "all entries, field lists and missing attributes", "why_tests_cant": "The domain is infinite; tests sample it.", "anchors": ["libff/console.py:Console.process", "libff/field.py:OutputFields.to_dict"]}
{"id": "C32", "title": "Colour changes only escape sequences", "statement": "Turning colour on never changes which entries are printed nor their text and column widths apart from inserted escape sequences.", "quantifier": "all entries, all LS_COLORS settings", "why_tests_cant": "The domain is infinite; tests sample it.", "anchors": ["libff/console.py:ColorConsole", "libff/console.py:Console.process", "libff/console.py:Console.pad_string"]}
{"id": "C33", "title": "Padded fields have at least the requested width and keep their text", "statement": "A field of width w is padded with spaces on the left (w>=0) or right (w<0) to exactly |w| characters, and never truncated.", "quantifier": "all strings and widths", "why_tests_cant": "The domain is infinite; tests sample it.", "anchors": ["libff/console.py:Console.pad_string"]}
{"id": "C34", "title": "--limit selects the documented slice; pages partition the result", "statement": "start:stop selects positions start..stop-1 with negative positions counted from the end; pagesize,page selects page number page; concatenating all pages gives every result exactly once.", "quantifier": "all result lists, all slices, all page sizes", "why_tests_cant": "The domain is infinite; tests sample it.", "anchors": ["libff/argparse.py:type_slice", "libff/processing.py:CollectiveMixin.entries_range"]}
{"id": "C35", "title": "--sort outputs a sorted, stable permutation of the results", "statement": "The sorted output contains every result exactly once, ordered by the listed attributes lexicographically (ascending, or descending with -R), results with equal keys keep their arrival order, missing attributes sort as the neutral value of their type.", "quantifier": "all result lists and sort attributes", "why_tests_cant": "The domain is infinite; tests sample it.", "anchors": ["libff/processing.py:CollectiveMixin.finalize", "libff/field.py:SortFields.render"]}
{"id": "C36", "title": "Sorted output is reproducible", "statement": "The output of --sort does not depend on the order in which parallel processes deliver results.", "quantifier": "all arrival orders", "why_tests_cant": "Arrival order depends on scheduling.", "anchors": ["libff/processing.py:CollectiveMixin.finalize", "libff/type.py:Path.sort_key"]}
{"id": "C37", "title": "Natural sort orders embedded numbers numerically and never fails", "statement": "Sorting with the v modifier compares digit runs by numeric value, is defined for all names and all result sets.", "quantifier": "all sets of names", "why_tests_cant": "The domain is infinite; tests sample it.", "anchors": ["libff/field.py:SortFields.prepare_component", "libff/field.py:SortFields.prepare_sort_key"]}
{"id": "C38", "title": "--count totals are exact and independent of arrival order", "statement": "_total is the number of results, a summed attribute the sum of its values over results having it, and a counted attribute's per-value counts the number of results having that value; none depends on chunking or arrival order.", "quantifier": "all result lists, all chunkings, all arrival orders", "why_tests_cant": "The domain is infinite; tests sample it.", "anchors": ["libff/processing.py:CollectiveMixin.collect_count", "libff/processing.py:CollectiveMixin.prepare_count"]}
{"id": "C39", "title": "--count always prints _total and never fails", "statement": "There is always a _total line, also with no results, and statistics can be printed for every set of attribute values.", "quantifier": "all result lists", "why_tests_cant": "The domain is infinite; tests sample it.", "anchors": ["libff/processing.py:CollectiveMixin.prepare_count", "libff/processing.py:CollectiveMixin.print_count"]}
{"id": "C40", "title": "Command templates render to one argument per template word, without injection", "statement": "For -x each template word yields exactly one argument: placeholders are replaced by the entry's value verbatim, doubled braces by single braces, everything else is unchanged; the path is appended iff no word after the command contains a placeholder; any string can be passed literally by doubling its braces.", "quantifier": "all templates, all attribute values", "why_tests_cant": "The domain is infinite; tests sample it.", "anchors": ["libff/field.py:ExecFields.store", "libff/field.py:ExecFields.replace", "libff/field.py:ExecFields.render_fields"]}
{"id": "C41", "title": "--exec-batch passes every result exactly once, in order", "statement": "Whatever the system's limit on command line size, the commands run by -X together receive every result exactly once and in order; a single command is run if it fits.", "quantifier": "all result lists, all size limits", "why_tests_cant": "Depends on an external limit and on recursive splitting.", "anchors": ["libff/processing.py:CollectiveExecProcessing.finalize", "libff/field.py:ExecBatchFields.render"]}
{"id": "C42", "title": "Failed commands are always reflected in the exit status", "statement": "ff exits with the subprocess-error status or the process-error status iff some command failed or some worker failed; the success and failure counts add up to the number of commands run; no later event resets the status to success.", "quantifier": "all histories of command results and worker failures", "why_tests_cant": "Histories and interleavings are unbounded.", "anchors": ["libff/context.py:Context.run_exec_process", "libff/context.py:Context.set_exitcode", "libff/main.py:Main.walk"]}
{"id": "C43", "title": "--halt soon/now starts no further command after a failure", "statement": "With one job and --halt soon or now, the commands run are exactly the results up to and including the first failing one; with never all are run.", "quantifier": "all command result sequences", "why_tests_cant": "The domain is infinite; tests sample it.", "anchors": ["libff/context.py:Context.run_exec_process", "libff/processing.py:Parallel.thread"]}
{"id": "C44", "title": "--fail exits with 1 iff there were no results", "statement": "With --fail and no errors, ff exits with status 1 iff the search had no results, in every processing mode.", "quantifier": "all result sets and processing modes", "why_tests_cant": "The domain is infinite; tests sample it.", "anchors": ["libff/main.py:Main.walk", "libff/context.py:Context.set_has_result", "libff/processing.py:BaseConsoleProcessing.process", "libff/processing.py:CollectiveMixin.finalize"]}
{"id": "C45", "title": "The metadata cache is transparent", "statement": "For every history of lookups, stores, commits, crashes and restarts of any number of processes, a cache hit returns a value stored earlier for exactly this plugin table, path and tag, the most recently committed one; so an attribute's value with the cache equals the one without as long as the plugin's data only depends on path and tag.", "quantifier": "all histories including crashes at any point", "why_tests_cant": "Histories and crash points are unbounded.", "anchors": ["libff/cache.py:Cache.get", "libff/cache.py:Cache.set", "libff/cache.py:Cache.commit", "libff/registry.py:Registry.get_data_from_plugin"]}
{"id": "C46", "title": "Different files never share a cache entry", "statement": "Two different path names always have different cache keys.", "quantifier": "all pairs of path names", "why_tests_cant": "The domain is infinite; tests sample it.", "anchors": ["libff/cache.py:Cache.get", "libff/cache.py:Cache.set"]}
{"id": "C47", "title": "Initialising one plugin's cache leaves other plugins' cached data alone", "statement": "Registering a plugin drops only tables of older versions of that same plugin.", "quantifier": "all sets of plugin names and cache tags", "why_tests_cant": "The domain is infinite; tests sample it.", "anchors": ["libff/cache.py:Cache.init_table", "libff/plugin.py:Plugin.initialize"]}
{"id": "C48", "title": "--clean-cache removes exactly the entries of vanished files", "statement": "After cleaning, the cache holds exactly the former rows whose path still exists.", "quantifier": "all databases, all filesystems", "why_tests_cant": "The domain is infinite; tests sample it.", "anchors": ["libff/cache.py:Cache.clean"]}
{"id": "C49", "title": "Attribute names resolve uniquely, file attributes first", "statement": "An unqualified attribute name means the file plugin's attribute if there is one, otherwise the attribute of the only plugin providing it; it is an error if none or several do; a qualified name means that plugin.", "quantifier": "all plugin/attribute tables, all names", "why_tests_cant": "The domain is infinite; tests sample it.", "anchors": ["libff/registry.py:Registry.parse_attribute", "libff/registry.py:Registry.setup_attribute"]}
{"id": "C50", "title": "Earlier plugin directories win", "statement": "When several directories provide a plugin of the same name the first in the documented order (builtin, contrib, FF_PLUGIN_DIRS, user) is used and the others are skipped.", "quantifier": "all plugin directory contents", "why_tests_cant": "The domain is infinite; tests sample it.", "anchors": ["libff/registry.py:Registry.register_plugin", "libff/registry.py:Registry.iter_plugin_dirs"]}
{"id": "C51", "title": "References compare only attributes of compatible types, symmetrically", "statement": "A reference {attr}file is accepted iff the two attributes' types share a common proper base type; this relation is reflexive and symmetric.", "quantifier": "all pairs of attribute types", "why_tests_cant": "The domain is infinite; tests sample it.", "anchors": ["libff/parser.py:Parser.get_common_super_type", "libff/parser.py:Parser.get_reference_value"]}
{"id": "C52", "title": "Equivalent option spellings parse equally", "statement": "--opt=value equals --opt value, -oVALUE equals -o VALUE, and a bundle of flags equals the flags given separately, a final option in a bundle taking its argument from the next word.", "quantifier": "all argument vectors, all option tables", "why_tests_cant": "The domain is infinite; tests sample it.", "anchors": ["libff/argparse.py:ArgumentParser.parse_args", "libff/argparse.py:ArgumentParser.parse_combined_short_options", "libff/argparse.py:ArgumentParser.parse_long_option_with_value"]}
{"id": "C53", "title": "-x/-X take the rest of the command line verbatim", "statement": "All words after -x or -X become the command template unchanged and are never interpreted as options.", "quantifier": "all argument vectors", "why_tests_cant": "The domain is infinite; tests sample it.", "anchors": ["libff/argparse.py:ArgumentParser.parse_option"]}
{"id": "C54", "title": "Options with a fixed set of choices refuse other values", "statement": "--case, --halt and --color accept only their documented values.", "quantifier": "all argument vectors", "why_tests_cant": "The domain is infinite; tests sample it.", "anchors": ["libff/argparse.py:ArgumentParser.get_argument", "libff/arguments.py:create_parser"]}
{"id": "C55", "title": "Directory arguments at the start or end of the arguments are recognised", "statement": "Without -D every argument in the leading and trailing runs of existing directories becomes a search directory and is removed from the tests, all others remain tests in order.", "quantifier": "all argument lists, all filesystems", "why_tests_cant": "The domain is infinite; tests sample it.", "anchors": ["libff/arguments.py:ArgumentsPostProcessor.process_directories"]}
{"id": "C56", "title": "Overlapping search directories are refused, so nothing is reported twice", "statement": "If one search directory equals or lies inside another the search is refused.", "quantifier": "all lists of directories", "why_tests_cant": "The domain is infinite; tests sample it.", "anchors": ["libff/arguments.py:ArgumentsPostProcessor.process_directories"]}
{"id": "C57", "title": "The number of jobs is between 1 and the number of CPUs", "statement": "Every accepted -j value yields between 1 and the CPU count processes, 0 meaning all CPUs.", "quantifier": "all strings, all CPU counts", "why_tests_cant": "The domain is infinite; tests sample it.", "anchors": ["libff/argparse.py:type_jobs"]}
{"id": "C58", "title": "Depth ranges and slices parse as documented", "statement": "N, A-B, A-, -B and comma lists denote the corresponding closed ranges in either order of bounds; malformed ranges and slices are refused.", "quantifier": "all strings", "why_tests_cant": "The domain is infinite; tests sample it.", "anchors": ["libff/argparse.py:type_ranges", "libff/argparse.py:type_slice"]}
{"id": "C59", "title": "Extension, stem and path fit together", "statement": "For every path, pathx plus the extension with its dot is the path; the extension contains no dot and no slash; leading dots of the basename never start an extension; the extension is the part after the last dot otherwise.", "quantifier": "all paths", "why_tests_cant": "The domain is infinite; tests sample it.", "anchors": ["libff/path.py:splitext", "libff/entry.py:Entry.ext", "libff/entry.py:Entry.pathx"]}
{"id": "C60", "title": "Directory and name fit together", "statement": "For every entry joining dir and name gives path, name is the entry's own file name, and path is the start directory joined with relpath.", "quantifier": "all start directories, all entries", "why_tests_cant": "The domain is infinite; tests sample it.", "anchors": ["libff/path.py:split", "libff/path.py:join", "libff/entry.py:Entry.__init__"]}
{"id": "C61", "title": "depth, hide and hidden describe the path", "statement": "depth is the number of directories between the start directory and the entry; hide is true iff its own name starts with a dot; hidden iff some component of its path does.", "quantifier": "all entries", "why_tests_cant": "The domain is infinite; tests sample it.", "anchors": ["libff/entry.py:Entry.depth", "libff/entry.py:Entry.hide", "libff/entry.py:Entry.hidden"]}
{"id": "C62", "title": "mpath, devname and fstype describe the mountpoint a file is on", "statement": "For every mount table and path, they describe the mount with the longest mountpoint that is the path itself or one of its ancestors.", "quantifier": "all mount tables, all paths", "why_tests_cant": "The domain is infinite; tests sample it.", "anchors": ["libff/entry.py:Mountpoints.get", "libff/entry.py:Mountpoints.__init__"]}
{"id": "C63", "title": "--one-file-system never crosses a device boundary and changes nothing else", "statement": "With --one-file-system an entry is reported iff it would be reported without it when, in addition, neither it nor any directory on the way to it from the start directory is on another device than the start directory.", "quantifier": "all trees, all assignments of devices, all other arguments", "why_tests_cant": "Trees and mounts are unbounded, and tests cannot mount file systems.", "anchors": ["libff/arguments.py:ArgumentsPostProcessor.process_arguments", "libff/entry.py:Entry.samedev", "libff/walk.py:FilesystemWalker.process_entries"]}
{"id": "C64", "title": "Output fields are read as documented", "statement": "A field of --output, --sort, --count or a command template is accepted iff it is an attribute name with an optional plugin name, followed by an optional colon with an optional width and an optional modifier, and it is split into exactly these parts; there is only one way to read it.", "quantifier": "all strings", "why_tests_cant": "The set of strings is infinite; tests sample it.", "anchors": ["libff/field.py:Fields.make_field", "libff/field.py:Fields.regex_field"]}
{"id": "C65", "title": "Numbers are printed exactly in the requested base", "statement": "Without modifier a number is printed in base 10, with x in base 16 and with o in base 8, without leading zeros, so that reading the text in that base gives the number back.", "quantifier": "all integers, all numeric types", "why_tests_cant": "Integers are unbounded; tests sample them.", "anchors": ["libff/type.py:Number.output"]}
{"id": "C66", "title": "File types are tested under their documented names and abbreviations", "statement": "A test type=x is accepted iff x is one of the documented names or abbreviations, and holds iff the file has the type that x stands for (d and directory, f and file, l and symlink, s and socket, p, pipe and fifo, char, block, door, port, whiteout, other).", "quantifier": "all names, all files", "why_tests_cant": "The set of strings that must be refused is infinite; tests sample it.", "anchors": ["libff/type.py:FileType", "libff/parser.py:Parser.create_test"]}
{"id": "C67", "title": "Options that are not given have their documented defaults", "statement": "Whatever else is on the command line and however it is spelled, a setting that no option on it is about has its documented default.", "quantifier": "all command lines", "why_tests_cant": "The set of command lines is infinite; tests sample it.", "anchors": ["libff/argparse.py:ArgumentParser.parse_args", "libff/arguments.py:create_parser"]}
{"id": "C68", "title": "Human-readable sizes are close, ordered and can be used in tests", "statement": "With the modifier h a size below the base (1024, or 1000 with --si) is printed exactly in bytes; a larger one as a number from 1 on and below the base with a unit, with one decimal and an error of at most 0.051 units below ten, and as whole units otherwise (never more than 0.051 units too much, less than one unit missing). A larger file is never printed with a smaller size. The text is accepted in a test on size, as a size that differs by at most a tenth.", "quantifier": "all sizes that a file can have (any below the base to the eighth), both bases", "why_tests_cant": "The number is rounded as a double in every step of a loop; the boundaries between units are the interesting cases and there are too many sizes to test.", "anchors": ["libff/convert.py:format_size", "libff/convert.py:parse_size", "libff/type.py:Size.output"]}
{"id": "C69", "title": "Documented dates and times denote the first moment at which local clocks show them", "statement": "A time value YYYY-MM-DD, YYYY-MM-DD hh:mm or YYYY-MM-DD hh:mm:ss is the first moment at which clocks in the local time zone show this date and time (the beginning of the day for a date; a time that clocks skip is read as if they had not been changed). A time of day hh:mm or hh:mm:ss is the last such time that is not in the future. Dates and times that do not exist, like 2023-02-29 or 24:00, are refused.", "quantifier": "all dates of the years 1 to 9999, times of day, time zones with at most one change of clocks around that day, and current times", "why_tests_cant": "Leap years, time zones with changes of clocks and the clock combine to infinitely many cases; tests run in one time zone and at one time.", "anchors": ["libff/convert.py:parse_time", "libff/convert.py:time_formats", "libff/type.py:Time"]}
{"id": "C70", "title": "Printed times can be read back", "statement": "A time attribute printed with the modifier h shows the date and time of local clocks, and used as the value of a test it denotes the same time again.", "quantifier": "all times of the years 1000 to 9999 and all time zones", "why_tests_cant": "Tests look at a few times in one time zone.", "anchors": ["libff/convert.py:format_time", "libff/convert.py:parse_time", "libff/type.py:Time.output"]}
{"id": "C71", "title": "Attributes of a file agree with its status", "statement": "The attribute type is the documented name of the file type in the mode of the file (other if there is none), perm is the mode without the file type, exec holds exactly for files other than directories and symbolic links that somebody may execute, size is the size of a regular file and 0 for everything else, and empty are regular files without content and directories that contain nothing.", "quantifier": "all modes, sizes and listings", "why_tests_cant": "Modes combine types and twelve permission bits; tests create a handful of files.", "anchors": ["libff/builtin/file.py:File.process", "libff/entry.py:Entry"]}
{"id": "C72", "title": "Printed modes can be read as those of ls", "statement": "A mode attribute printed with the modifier h shows the file type in the first letter and, read as documented in ls(1), the twelve permission bits in the other nine; different modes are never shown alike.", "quantifier": "all modes", "why_tests_cant": "There are 65536 modes; tests look at a few.", "anchors": ["libff/type.py:Mode.output"]}
{"id": "C73", "title": "User and group names do not depend on the order of files", "statement": "The user or group name of a file is the one in the database, or empty for unknown ids, whatever files were looked at before.", "quantifier": "all databases and all sequences of ids", "why_tests_cant": "Names are cached; a test sees few sequences of lookups.", "anchors": ["libff/builtin/file.py:File"]}
{"id": "C74", "title": "A reference file has the attributes with which it is found", "statement": "A file given as a reference (attribute, operator, {} and its path) has the same paths, names and depth as the same file when it is found by the search.", "quantifier": "all search directories, current directories and paths", "why_tests_cant": "Depends on how search directories, current directory and the path are written.", "anchors": ["libff/entry.py:Entry.as_reference", "libff/parser.py", "libff/entry.py:StartDirectory"]}
{"id": "C75", "title": "A file belongs to the nearest git repository above it", "statement": "git.repo_dir is the nearest directory, among the directory of a file and those it is in, that is the base of a git repository; without one the attributes of the git plugin are missing. git.repo holds exactly for the base directories of repositories. Neither depends on which files were looked at before.", "quantifier": "all directory trees and all sequences of files", "why_tests_cant": "The plugin remembers the answer for every directory; tests see few trees and one order.", "anchors": ["plugins/git.py:Git.find_repo", "plugins/git.py:Git.process"]}
{"id": "C76", "title": "git.tracked and git.dirty agree with git", "statement": "git.tracked holds exactly for files that git tracks and for directories with such a file in them; git.dirty holds exactly for tracked files that git reports as changed and for directories with such a file in them.", "quantifier": "all sets of tracked files and changes, all names", "why_tests_cant": "Names with blanks, quotes or letters beyond ASCII and renamed files are printed differently by git.", "anchors": ["plugins/git.py:Filelist", "plugins/git.py:Status", "plugins/git.py:Git.process"]}
{"id": "C77", "title": "Whether a file is ignored does not depend on the files before it", "statement": "ignore.ignored and ignore.path of a file are the same whatever files were looked at before.", "quantifier": "all ignore files and all sequences of files", "why_tests_cant": "The plugin caches ignore files and lists of them; a test sees few sequences.", "anchors": ["libff/builtin/ignore.py:Ignore.get_ignores", "libff/builtin/ignore.py:Ignore.process"]}
{"id": "C78", "title": "Records of Find give the same values by key and by attribute", "statement": "In the Python interface every requested attribute of an entry is available under its name and as an attribute of the record with an underscore for the dot; other names are errors.", "quantifier": "all lists of attributes and entries", "why_tests_cant": "Different names can coincide after the replacement; tests use a few names.", "anchors": ["libff/field.py:AttributeDict", "libff/field.py:OutputFields.to_dict", "libff/processing.py:ImmediateGenerator"]}
{"id": "C79", "title": "A query given to Find as a string is split like a command line", "statement": "Find(string) is the same as Find(words) where the words are those a shell would make of the string, with single quotes, double quotes and backslashes; a string without closing quotes is refused. Words quoted with shlex.quote come back unchanged.", "quantifier": "all strings and lists of words", "why_tests_cant": "Quotes and escapes combine in unboundedly many ways.", "anchors": ["libff/find.py:Find.__init__"]}
{"id": "C80", "title": "grep.linecount and grep.lines describe the lines of a text", "statement": "grep.linecount is the number of lines of a text, whether they end in \\n, \\r\\n or \\r and whether or not the last one is terminated. A test grep.lines:TEXT holds exactly if a line contains the text, grep.lines=TEXT exactly if a line is the text.", "quantifier": "all texts", "why_tests_cant": "Line ends and unfinished last lines combine; tests use one file.", "anchors": ["libff/builtin/grep.py:Grep.process", "libff/type.py:ListOfStrings"]}
{"id": "C81", "title": "mime.type and mime.subtype are the parts of mime.mime", "statement": "mime.type and mime.subtype are the texts before and after the first slash of mime.mime.", "quantifier": "all content types", "why_tests_cant": "libmagic knows hundreds of content types.", "anchors": ["libff/builtin/mime.py:Mime.process"]}
{"id": "C82", "title": "FF_OPTIONS gives defaults the command line overrides", "statement": "If FF_OPTIONS and the command line are both accepted on their own and at most one of them has tests, then together they mean the settings of FF_OPTIONS overridden by those of the command line; exclude tests and directories of both add up. Without FF_OPTIONS the command line means what it says.", "quantifier": "all values of FF_OPTIONS and all command lines", "why_tests_cant": "Options with optional arguments, bundles and quotes combine in unboundedly many ways across the boundary.", "anchors": ["libff/arguments.py:collect_arguments", "libff/argparse.py:ArgumentParser.parse_args"]}
{"id": "C83", "title": "Options that contradict each other are refused or switched off", "statement": "--count together with --exec, --exec-batch or --limit is refused, and in debugging builds --profile together with --exec or --exec-batch; nothing else is refused, as long as the command line can be parsed, the directories are accepted and the fields exist. With --count nothing is sorted or printed entry by entry, and --sort is reported as having no effect. With --exec and --exec-batch the option --output has no effect and is reported. Results are collected before they are processed exactly if --sort, --count, --limit, --exec-batch or --json is given. All other options are kept, and the only other warning is that of --limit without --sort.", "quantifier": "all command lines", "why_tests_cant": "Pairs and triples of options in any order and spelling, tests check a few.", "anchors": ["libff/arguments.py:ArgumentsPostProcessor.check_for_errors", "libff/arguments.py:ArgumentsPostProcessor.collect_warnings", "libff/main.py:Main.setup_processing"]}
{"id": "C84", "title": "-o file prints every attribute of a file", "statement": "In the list of fields of --output the word file stands for all attributes of the file plugin, each exactly once, in alphabetical order; missing values are printed as empty fields. Fields before and after it are kept.", "quantifier": "all lists of fields and all sets of plugins", "why_tests_cant": "Other plugins with attributes of the same names must not get in between; tests use the plugins that are there.", "anchors": ["libff/main.py:_Base.setup_components", "libff/registry.py:Registry.get_file_attributes"]}
{"id": "C85", "title": "Results that are processed immediately are printed or executed exactly once", "statement": "Without sorting, counting or limits every selected entry is printed exactly once; with --exec the command of every selected entry for which a command can be made is run exactly once, and nothing is printed or run for other entries. The program reports that it has found something if and only if an entry is selected.", "quantifier": "all directory trees, numbers of jobs and interleavings of the processes", "why_tests_cant": "Results are passed between processes by queues, which entries get lost or doubled depends on the schedule.", "anchors": ["libff/processing.py:ImmediateConsoleProcessing", "libff/processing.py:ImmediateExecProcessing", "libff/walk.py:FilesystemWalker.loop", "libff/context.py:Context.barrier_wait"]}
{"id": "C86", "title": "A search comes to an end", "statement": "Whatever the number of jobs and the order in which the processes run, the number of steps they take, apart from waiting for something to do, is at most linear in the number of files; and whatever has happened so far the search can still come to its end. It ends only when all processes have stopped.", "quantifier": "all directory trees, numbers of jobs and interleavings of the processes", "why_tests_cant": "Deadlocks and livelocks depend on the schedule; a test that ends shows nothing about other runs.", "anchors": ["libff/walk.py:FilesystemWalker.loop", "libff/walk.py:FilesystemWalker.process_entries", "libff/processing.py:CollectiveMixin.loop", "libff/context.py:Context.barrier_wait"]}
{"id": "C87", "title": "From the command line to the output", "statement": "When ff ends, it has printed (or passed to the command given with -x, or collected for sorting and limits) exactly the entries the command line asks for, each of them once: those that are somewhere below one of the directories, in one of the depths, for which the test expression is true, and for which neither they nor any directory on the way is hidden (-H), ignored (-I), excluded (-e) or on another file system (--one-file-system). Without -o, --json, --count and colors the output consists of the paths, each followed by the newline character, with -S in the order of the attributes and with -l only those at the positions asked for. With --fail the exit status is 1 if and only if there are no such entries.", "quantifier": "all command lines, directory trees, sets of plugins, values of attributes, numbers of jobs and interleavings of the processes", "why_tests_cant": "It involves the argument parser, the test parser, the matcher, the walker, several processes with their queues and the console; a test runs one command line with one tree and one schedule.", "anchors": ["libff/main.py:Main.walk", "libff/main.py:Main.__init__", "libff/arguments.py:Arguments.process", "libff/walk.py:FilesystemWalker.loop", "libff/processing.py:setup_processing"]}
{"id": "C88", "title": "Searching from Python finds the same as the command line", "statement": "Iterating over Find(...) yields one record for each entry the arguments ask for and no other, each of them once: entries somewhere below one of the directories that meet the query, and for which neither they nor any directory on the way is hidden, ignored, excluded or on another file system. A record maps each attribute of output to the entry's value, or None if there is none. If sort is given, the records come in the order of the attributes. The records are those printed by ff --jsonl with the corresponding options. A case that is not one of the three choices and output attributes with other modifiers than :n are refused.", "quantifier": "all arguments, directory trees, sets of plugins, values of attributes, numbers of jobs and interleavings of the processes", "why_tests_cant": "The claim relates two entry points that use different loops, for every tree and every schedule; a test compares one list from one run.", "anchors": ["libff/find.py:Find.__init__", "libff/find.py:Find.__iter__", "libff/processing.py:ImmediateGenerator", "libff/processing.py:CollectiveGenerator"]}
{"id": "C89", "title": "Commands after sorting are run in parallel, each exactly once", "statement": "When -x is used together with --sort or --limit, the commands are started in the order of the entries, one for each entry for which a command can be made, and at most as many at the same time as there are jobs. When ff ends, all commands that have been started have ended, and all commands have been started, unless --halt is soon or now and a command failed. Once the failure is noticed no further commands are started, except for one by each of the other jobs that is just waiting for work. The exit status tells whether a command failed. ff comes to an end.", "quantifier": "all lists of entries, numbers of jobs, results of commands, values of --halt and interleavings of the threads", "why_tests_cant": "Lost, repeated or reordered commands would need a certain interleaving of threads; a test sees one of them.", "anchors": ["libff/processing.py:Parallel", "libff/processing.py:CollectiveExecProcessing.finalize", "libff/context.py:Context.run_exec_process"]}
{"id": "C90", "title": "Names are shown in the colours of LS_COLORS", "statement": "With colours switched on and LS_COLORS set, the name of an entry is shown in the colour LS_COLORS has for it: `or` for a link whose target does not exist and `ln` for other links (unless links are followed), `ex` for executables, and otherwise the colour of its suffix; directories and the directory part of a path are shown in the colour `di`. If there are several items for the same kind or suffix, the last one counts. After the text the colour is reset as `rs` says, by default with 0. Nothing is put around a text without a colour, other fields have no colours, and the width of a column does not count escape sequences.", "quantifier": "all values of LS_COLORS, all entries, all fields and widths", "why_tests_cant": "LS_COLORS is a small language with more than a hundred items on a usual system, and the colour depends on several attributes of the entry; tests check a few combinations.", "anchors": ["libff/console.py:ColorConsole", "libff/console.py:Console.render_name", "libff/console.py:Console.render_path"]}
{"id": "C91", "title": "link, target and broken of symbolic links", "statement": "For a symbolic link `link` is its text, `target` the absolute path, without any symbolic links, of the file it leads to, and `broken` says whether it leads to no file. For anything else there is no `link` and no `target`, and `broken` is false.", "quantifier": "all file systems with any symbolic links (chains, loops, links in the middle of paths), all links found in any directory, any current directory", "why_tests_cant": "It needs file systems with all shapes of links: relative, absolute, through other links, in loops; a test has a few links, usually next to their targets.", "anchors": ["libff/entry.py:Entry.__init__", "libff/path.py:join", "libff/builtin/file.py:File"]}
{"id": "C92", "title": "Failures during the search", "statement": "When results are printed or passed to commands during the search, something may fail: a command, with --halt never, soon or now; a process, by an unexpected error; or a process that is killed. In all cases: No command is started twice, or for an entry that is not asked for. If ff is stopped by a failure, each of the other jobs starts at most one further command, with a single job there is none. A command that fails does not stop ff with --halt never. The exit status is 0 if and only if no failure has been noticed, and otherwise 3 or 4; if it is 0 everything asked for has been done. ff comes to an end, unless a process is killed while it waits for the others (C131).", "quantifier": "all directory trees, numbers of jobs, values of --halt, failures at any time and interleavings of the processes", "why_tests_cant": "The moment of a failure relative to what the other processes do decides what happens; tests can not control it.", "anchors": ["libff/walk.py:FilesystemWalker.loop", "libff/context.py:Context.run_exec_process", "libff/context.py:Context.barrier_wait", "libff/processing.py:BaseProcessing.check_for_failed_processes"]}
{"id": "C93", "title": "shebang is the rest of a script's first line", "statement": "The attribute shebang of a regular file is what follows #! on its first line, without the white space at the end, if the file begins with #! and the line is ASCII; otherwise the attribute is missing.", "quantifier": "all file contents", "why_tests_cant": "Contents have no bound and the interesting ones have #! in unusual places.", "anchors": ["plugins/introspect.py:Shebang.extract_shebang"]}
{"id": "C94", "title": "py.imports lists the modules a Python file imports", "statement": "py.imports consists of exactly the modules and packages that the import statements of a Python file import, in alphabetical order; relative imports are reported with the name of the package they refer to. Files with the extension py and scripts whose #! line mentions python are taken for Python files.", "quantifier": "all lists of import statements and all directories", "why_tests_cant": "Every combination of statements, dots and directories matters.", "anchors": ["plugins/introspect.py:Py.parse_imports", "plugins/introspect.py:Py.can_handle"]}
{"id": "C95", "title": "The attributes of media files", "statement": "The tags of a medium are the last ones that are not empty in the tracks that describe it as a whole. Width and height are both given or both missing; they are those of the first video track, or of the first image track if there is no video. Only files without video have a format, that of the first image track in lower case. The duration is that of the first audio track, or of the first video track if the former has none, in whole seconds.", "quantifier": "all sequences of tracks", "why_tests_cant": "Media files may have any number of tracks in any order.", "anchors": ["libff/builtin/media.py:Medium.prepare_tracks", "libff/builtin/media.py:Medium.cache"]}
{"id": "C96", "title": "pacman.installed and pacman.pkgname agree with pacman", "statement": "A file is reported as installed if and only if it belongs to a package, and then pkgname is the name of such a package; otherwise pkgname is missing.", "quantifier": "all package databases and all paths", "why_tests_cant": "The database of packages is arbitrary.", "anchors": ["plugins/pacman.py:Pacman.setup", "plugins/pacman.py:Pacman.process"]}
{"id": "C97", "title": "Only regular files are opened", "statement": "No test makes ff open anything but regular files, so it never waits for a named pipe or reads from a device.", "quantifier": "all plugins that read files, all kinds of files and all names", "why_tests_cant": "Such files are rarely in the directories used by tests.", "anchors": ["plugins/introspect.py:Py.can_handle", "plugins/tar.py:Tar.can_handle", "libff/builtin/media.py:Medium.can_handle", "libff/builtin/ignore.py:Ignore.get_ignores", "libff/walk.py:FilesystemWalker.scan_directory"]}
{"id": "C98", "title": "Files that cannot be read do not end the search", "statement": "A file that cannot be opened or read, or whose contents are not in the format or encoding that is expected, merely has no values for the attributes in question; the search goes on.", "quantifier": "all plugins that read files and all errors the contents of a file can cause", "why_tests_cant": "Whether each of the many exceptions of the libraries used is caught has to be looked at case by case.", "anchors": ["libff/registry.py:Registry.get_data", "plugins/tar.py:Tar.cache", "plugins/hash.py:_Hash.cache", "plugins/fs.py:Fs.get_fs_type", "libff/builtin/ignore.py:Ignore.get_ignores"]}
{"id": "C99", "title": "The exit status tells what went wrong before the search", "statement": "If ff ends before it searches, the exit status is 11 if and only if an attribute is named that is invalid or does not exist, in a field or in a test; 12 if and only if a word that should be a test is not one, its operator or value does not suit the attribute, or its regular expression is none; 2 for other errors in the arguments; 0 if help or the version was asked for; never 1, which means that nothing was found with --fail. Of several faults the first one counts. If there is none, the search begins.", "quantifier": "all command lines, all values of FF_OPTIONS, all sets of plugins", "why_tests_cant": "The faults of arguments and their combinations have no bound, and an exit status may be caused by many of them.", "anchors": ["libff/exceptions.py", "libff/main.py:BaseClass.setup_components", "libff/field.py:Fields.make_field", "libff/field.py:ExecFields.store", "libff/parser.py:Parser.parse_test", "libff/parser.py:Parser.create_test"]}
{"id": "C100", "title": "What cannot be read is left out, and nothing else", "statement": "A search without tests reports exactly the entries that can be examined and that are reached from a start directory through directories that can be listed. A file or directory that has vanished or may not be accessed neither ends the search nor hides anything else, and there is no warning about it; every other error is shown as a warning.", "quantifier": "all file systems, all patterns of errors, all start directories", "why_tests_cant": "Errors of the operating system are hard to provoke and can occur at every file in any combination.", "anchors": ["libff/walk.py:FilesystemWalker.scan_directory", "libff/entry.py:Entry.__init__"]}
{"id": "C101", "title": "Symbolic links are entered with -L only, and then a search still ends", "statement": "Without -L no directory on the way to a reported entry is a symbolic link. With -L a symbolic link counts as what it leads to, links that lead nowhere are reported as themselves, and links to directories that are searched anyway do not make the search endless.", "quantifier": "all file systems with symbolic links", "why_tests_cant": "The possible arrangements of links are unbounded, and a test cannot tell a search that takes very long from one that does not end.", "anchors": ["libff/walk.py:FilesystemWalker.scan_directory", "libff/entry.py:Entry.__init__", "libff/arguments.py:BaseArguments"]}
{"id": "C102", "title": "Results combine like sets", "statement": "For runs with the same options about where to search and what to leave out: the same tests give the same results, whatever the options for output, sorting, number of processes or commands. The results for `a and b` are those of both, the results for `a or b` those of one of them, the results for `not a` are what a search without tests finds apart from the results for `a`. A search in several directories finds what the searches in each of them find, and further --exclude tests only take away results, none of which is left that meets one of them.", "quantifier": "all file systems, all expressions, all command lines and all interleavings of the processes", "why_tests_cant": "It relates several runs with different arguments, each of which has unboundedly many schedules; tests compare single runs with expected lists.", "anchors": ["libff/main.py:Main", "libff/filter.py:Matcher", "libff/filter.py:Excluder", "libff/arguments.py:parse_arguments"]}
{"id": "C103", "title": "Which plugins are loaded", "statement": "The plugins are those that the plugin files define: regular files, or links to them, in the plugin directories whose names end with .py and do not begin with an underscore. Of several plugins with the same name the first one counts, in the order of the directories, and there is a warning for each of the others. Loading fails if and only if one of the plugins that count cannot be used, because it has an attribute whose type is not defined before it. A file that does not work does not affect the plugins of other files.", "quantifier": "all contents of the plugin directories and all files in them", "why_tests_cant": "The directories of the users and what their plugins define are unbounded, and the order in which the files are listed is up to the file system.", "anchors": ["libff/registry.py:Registry.load_plugins", "libff/registry.py:Registry.register_plugin", "libff/registry.py:Registry.inspect_namespace"]}
{"id": "C104", "title": "A plugin that cannot be set up matters only if it is used", "statement": "A plugin whose set-up fails, as when a library is missing, makes no difference to a run that uses none of its attributes. A run that uses one of them, for output, sorting, counting, a command or a test, ends with exit status 10 before the search, and no run ends with that status before the search for any other reason than a plugin.", "quantifier": "all sets of plugins, all sets of them that can be set up, all command lines", "why_tests_cant": "Tests run with the plugins and libraries that are installed, not with every combination of plugins that work, and with few command lines.", "anchors": ["libff/registry.py:Registry.init_plugin", "libff/registry.py:Registry.setup_attribute", "libff/parser.py:Parser.get_reference_value", "libff/main.py:Main.setup"]}
{"id": "C105", "title": "The sum of a file is that of its content", "statement": "The value of a hash attribute, like md5.md5, is the sum of the whole content of the file, however long the file is. A file that cannot be opened or cannot be read to its end has no value; it never has the sum of a part of it. This holds for all algorithms that are offered.", "quantifier": "all contents, all points at which reading may fail, all hash algorithms", "why_tests_cant": "The content and the point at which reading fails are unbounded, and reading in blocks can go wrong at the boundaries only.", "anchors": ["plugins/hash.py:_Hash.cache"]}
{"id": "C106", "title": "Messages are shown completely", "statement": "Whatever a warning, hint or error message contains and however narrow the terminal is, the message is shown, and nothing of it is lost, repeated or reordered but blanks. No line is longer than the terminal is wide, unless that is narrower than the indentation; lines that continue a message are indented. A name that fits in a line is not broken. Of messages that belong together by a tag, a process shows the first one only, and it shows all others.", "quantifier": "all messages, all widths of the terminal, all sequences of messages", "why_tests_cant": "Names of files and terminal widths are unbounded; breaking of long words depends on their lengths, blanks and hyphens in combination.", "anchors": ["libff/logger.py:Logger.print_message", "libff/__init__.py:OUTPUT_WIDTH"]}
{"id": "C107", "title": "The help shows all options", "statement": "The output of -h shows every option with all its spellings, with the name of its argument if and only if it takes one, followed by its complete help text, for all widths of the terminal.", "quantifier": "all terminal widths, all help texts, all options", "why_tests_cant": "A test looks at one width and would have to repeat the list of options.", "anchors": ["libff/argparse.py:ArgumentParser.print_help", "libff/argparse.py:ArgumentParser.format_option", "libff/argparse.py:Option.__init__"]}
{"id": "C108", "title": "Members of archives and extended attributes are lists like any other", "statement": "A test of tar.members is true if and only if it is true of the name of some member. The attribute is printed as the names, each of them once, the same way in each run; it can be printed as JSON and sorted by like any other list. xattr.xattrs has all the extended attributes of a file that can be read, in the form name=value.", "quantifier": "all archives, all orders in which python may keep a set, all lists of extended attributes", "why_tests_cant": "The order of a set depends on a random seed of each process; a test sees one order, and a single archive.", "anchors": ["plugins/tar.py:Tar.cache", "plugins/xattr.py:Xattr.process", "libff/type.py:ListOfStrings"]}
{"id": "C109", "title": "The file system of a file", "statement": "fs.type is the type of the file system the file itself is on, and fs.remote tells if it is a remote one; unknown types are shown as such. A file for which the system does not tell it has no value, and the search goes on.", "quantifier": "all types of file systems, all paths, all answers of the system", "why_tests_cant": "There are more than a hundred types, most of which no test machine has mounted.", "anchors": ["plugins/fs.py:Fs.process", "plugins/fs.py:Fs.get_fs_type"]}
{"id": "C110", "title": "Lines printed by several jobs are not mixed", "statement": "However many jobs print results at the same time, the output consists of whole lines: a line is never torn apart by a line of another job, none is lost or printed twice, and the lines of each job keep their order. This also holds at every moment before the end, so that a program that reads the output, or is left with it when ff is stopped, never sees a part of a line.", "quantifier": "all numbers of jobs, all lines of all lengths, all interleavings of the writing processes, all sizes of buffers", "why_tests_cant": "Mixing depends on lengths, buffer sizes and the timing of several processes; a test almost never sees it.", "anchors": ["libff/console.py:Console._write_line", "libff/console.py:JsonlConsole._print_record"]}
{"id": "C111", "title": "The reference pages show everything", "statement": "The pages of --help-attributes, --help-plugins, --help-types and --help <plugin>, as a reader of manual pages sees them, contain every plugin or type in its order under a heading with its name, every attribute with its full name, its type, its operators and its description, and all of the descriptions: apart from white space and the backticks that mark words, no character is lost, added or moved by the markup that ff inserts.", "quantifier": "all plugins and types with all names, attributes and texts", "why_tests_cant": "The markup depends on quotes, backticks, dashes, options and names of manual pages in texts that authors of plugins write; what is lost is not seen by the one who reads the page.", "anchors": ["libff/help.py:ManPage.process", "libff/help.py:AttributesManPage.render", "libff/help.py:PluginManPage.render", "libff/help.py:TypesManPage.render", "libff/help.py:PluginsManPage.render"]}
{"id": "C112", "title": "The manual shows everything", "statement": "The page of --help-full, as a reader of manual pages sees it, contains the whole text of the manual, all groups of options, every option with its spellings, its argument and its help text, the usage, all patterns for times and all exit statuses with their descriptions: apart from white space and the backticks that mark words, no character is lost, added or moved when lines are joined to paragraphs and headings, commands and definitions are recognised.", "quantifier": "all environments, versions and dates; all manuals and help texts of options that can be shown in this format", "why_tests_cant": "The page is assembled from a template of several hundred lines by rules on indentation and double blanks; one line that is taken for something else disappears or is joined with others unnoticed.", "anchors": ["libff/help.py:FullManPage", "libff/help.py:ManPage.parse_lines", "libff/help.py:ManPage.wrap", "libff/manpage.template", "libff/argparse.py:print_manpage_help"]}
{"id": "C113", "title": "Values written like the patterns in the manual are understood", "statement": "The manual shows patterns for dates and times. A value of a time attribute that is written like one of them, with a digit for each letter, and that denotes a time, is read as this time.", "quantifier": "all patterns of the manual and all values written like them, all time zones and moments", "why_tests_cant": "The patterns that are shown are derived from those used for parsing by a rule; a test of the parser does not look at what the manual shows.", "anchors": ["libff/help.py:ManPage.include", "libff/convert.py:time_formats", "libff/convert.py:parse_time"]}
{"id": "C114", "title": "The exit statuses are those of the manual", "statement": "Every exit status of ff other than 0 is one of those the manual lists, and means what the manual says there: after the search 1 means that --fail was given and nothing was found, 3 that a command of --exec or --exec-batch failed, 4 that a process failed, and 0 that none of this happened.", "quantifier": "all arguments, settings and plugins, all results and failures of searches and commands", "why_tests_cant": "Statuses are raised in many places, and some come from exceptions nobody thought of; tests compare single runs with a number, not all runs with the list that is shown.", "anchors": ["libff/exceptions.py", "libff/main.py:Main.walk", "libff/help.py:ManPage.include", "libff/context.py:set_exitcode"]}
{"id": "C115", "title": "Closing the pipe early is no error", "statement": "When the reader of the output closes the pipe before the end, as in ff | head, it has received exactly the beginning of the output that it would have received otherwise, and the exit status is that of the same search with a reader that takes everything.", "quantifier": "all outputs in all formats, all moments at which the reader goes away, all sizes of buffers, all interleavings of the workers", "why_tests_cant": "It depends on when the reader goes away, on what is still in a buffer at that moment, and on which process is writing; a test sees one of these moments.", "anchors": ["libff/main.py:Main.walk", "libff/console.py:JsonlConsole._print_record", "libff/console.py:JsonConsole", "libff/walk.py:FilesystemWalker.loop", "libff/processing.py:BaseProcessing.print_count"]}
{"id": "C116", "title": "A search in a part of a tree finds a part of the results", "statement": "With the same options, without -I, --one-file-system and --depth, and with tests about the files themselves, such as their names or sizes, a search in a directory finds exactly those files of a search in a directory above it that are below the first one, unless --exclude or -H leave out this directory or one on the way to it, in which case the search from above finds nothing there. In particular it does not matter under which name, relative or absolute, and from which working directory the same directory is searched.", "quantifier": "all file systems, directories and working directories, all tests about files, all options apart from those three, all interleavings of the processes", "why_tests_cant": "It compares two runs that see different paths, depths and start directories for the same files; tests use a fixed directory.", "anchors": ["libff/main.py:setup_walker", "libff/walk.py:FilesystemWalker", "libff/entry.py:Entry", "libff/arguments.py:process_directories"]}
{"id": "C117", "title": "A value that has been printed finds its file again", "statement": "If a value of an attribute that -o has printed for a file is given in a test, ATTRIBUTE=VALUE, exactly those entries are found that have this value, in particular the file itself: texts (up to case as --case says), file types, numbers, sizes, times, durations, modes and Booleans.", "quantifier": "all values of all types, all settings of --case, all attributes of all plugins", "why_tests_cant": "Output and input are separate functions for each type; their unit tests use a handful of fixed values and never feed the output back in.", "anchors": ["libff/type.py:Type.output", "libff/type.py:Type.input", "libff/parser.py:parse_test", "libff/parser.py:create_test", "libff/convert.py"]}
{"id": "C118", "title": "Slow tests are made only if they are needed", "statement": "For an entry, tests are made one after the other, faster ones before slower ones of the same sequence and equally fast ones as they are written. A test is made only as long as the result is open: the tests made before it leave it open whether the entry is found, and the tests that are made settle it whatever the others are. No test is made twice for an entry. Exclude tests are made in the same order until one of them holds.", "quantifier": "all queries and exclude tests, all speeds of plugins, all entries", "why_tests_cant": "Which tests are made cannot be seen in the results; a unit test would have to count calls for each combination of outcomes, brackets and speeds.", "anchors": ["libff/filter.py:Matcher._test", "libff/filter.py:Excluder.test", "libff/parser.py:optimize", "libff/parser.py:get_speed_score", "plugin_template.py:speed"]}
{"id": "C119", "title": "Starting ff starts the installed program", "statement": "The command ff runs the installed program, with exactly the words it is given as arguments and in optimised mode; what is in the current directory has no influence on the code that is executed.", "quantifier": "all command lines, all current directories, all installations", "why_tests_cant": "Tests are run from the source directory with a fixed working directory and call the module directly, they never start the installed script in a directory with files of other people.", "anchors": ["bin/ff", "ff/__main__.py"]}
{"id": "C120", "title": "elf.sonames lists the shared objects a program needs", "statement": "elf.sonames has exactly the names of the shared objects the dynamic linker is told to load for an ELF file, in alphabetical order; other files do not have the attribute.", "quantifier": "all files, all section and dynamic tables", "why_tests_cant": "The tests have no ELF files with several sections, entries after the end of the table or without section headers; they would need a linker for each layout.", "anchors": ["plugins/introspect.py:Elf.extract_sonames", "plugins/introspect.py:Elf.can_handle", "plugins/introspect.py:Elf.cache"]}
{"id": "C121", "title": "Changes of files are noticed", "statement": "After any sequence of earlier runs, the attributes that plugins extract from the content of a file, such as check sums, types, tags and members of archives, are those of the file as it is now, whether they are taken from the metadata cache or not.", "quantifier": "all plugins that use the cache, all histories of lookups by several processes with crashes, all changes of files between them", "why_tests_cant": "A test would have to change files at all possible moments, with all ways to set their times, between all possible runs.", "anchors": ["libff/plugin.py:Plugin.get_entry_cache_tag", "libff/registry.py:Registry.get_data_from_plugin", "libff/cache.py:Cache.get", "plugins/tar.py:Tar.can_handle", "libff/builtin/media.py:Medium.can_handle"]}
{"id": "C122", "title": "Glob tests look at the attribute they are made for", "statement": "NAME%PATTERN holds for an entry iff the value of the attribute matches the pattern as in gitignore(5): for paths the last component of the value if the pattern has no slash but possibly at its end, otherwise the whole value without its leading slashes; a trailing slash asks for directories and a leading ! inverts.", "quantifier": "all path and string attributes, all patterns, all values, all settings of --case", "why_tests_cant": "Each attribute would have to be tested with each kind of pattern on trees in which names, directories and targets differ in all possible ways.", "anchors": ["libff/type.py:Path.test", "libff/type.py:String.test", "libff/ignore.py:Glob.match", "libff/parser.py:Parser.create_test"]}
{"id": "C123", "title": "The examples of the documentation find what they say", "statement": "The searches shown in the manual and in EXAMPLES.md find exactly the files described there: regular files, files whose names end in .txt, files changed within the last 90 minutes, files with several links, files the user may execute, videos of certain heights, files newer or bigger than others, archives with a member of a name.", "quantifier": "all entries with all results of stat(2), all values of other plugins, all clocks and zones", "why_tests_cant": "An example run shows the documented result for the files of one directory only, not for all permissions, sizes, times and names.", "anchors": ["man/ff.1:EXAMPLES", "EXAMPLES.md", "libff/entry.py:Entry", "libff/filter.py:Matcher", "libff/parser.py:Parser"]}
{"id": "C124", "title": "The order of options does not matter", "statement": "Two command lines with the same options, tests and directories, in whatever order and spelling, mean the same or are both refused, as long as options about the same setting keep their order; of several options about one setting the last one counts, and --exclude and --directory collect all their arguments in order.", "quantifier": "all command lines, all orders, all spellings of the options", "why_tests_cant": "The orders of n options are n!, and each may be spelled in several ways; tests try a few.", "anchors": ["libff/argparse.py:ArgumentParser.parse_args", "libff/argparse.py:Namespace", "libff/arguments.py:create_parser"]}
{"id": "C125", "title": "-H, -I and --one-file-system stand for exclude tests", "statement": "A search with -H has the results of the same search with --exclude hide=yes instead, with --one-file-system those of --exclude samedev=no, with -I those of --exclude ignored=yes, whatever the other options and wherever the option stands.", "quantifier": "all command lines, all directory trees, all schedules of the processes", "why_tests_cant": "Equality of two searches in all directory trees and with all other options cannot be sampled.", "anchors": ["libff/arguments.py:ArgumentsPostProcessor.process_arguments", "libff/main.py:_Base.setup_walker", "libff/entry.py:Entry.get_attribute"]}
{"id": "C126", "title": "A command line is accepted only if all of it makes sense", "statement": "A command line is accepted exactly if it can be read completely: as a sequence of known options, each with an argument exactly if it takes one, and at most one group of tests and directories, where --name=argument and bundles of letters are read as if their parts were separate words. It has the effect of what it is read as; every other command line is refused with an error.", "quantifier": "for all lists of words", "why_tests_cant": "The words of a command line are unbounded in number and length; a test can only show that particular mistakes are refused, not that nothing else is let through or that the letters of every bundle are read one by one.", "anchors": ["libff/argparse.py:331-475", "libff/arguments.py"]}
{"id": "C127", "title": "Colours are used exactly when they are asked for", "statement": "Lines are printed in colours exactly if the last --color option says always, or says auto (or there is none and NO_COLOR is not set) and the output is a terminal; otherwise the output contains no escape sequences of ff, and it does not depend on LS_COLORS. With --json there are never colours.", "quantifier": "for all command lines, environments and entries", "why_tests_cant": "Tests run with a pipe as output and one value of LS_COLORS; that colours never leak into a pipe is a statement about all combinations of options and environments.", "anchors": ["libff/processing.py:160-176", "libff/arguments.py:126-128", "libff/arguments.py:307-313"]}
{"id": "C128", "title": "Different outputs of the same search agree", "statement": "Two searches with the same tests, directories and options about what to leave out, and the same options about how a line looks, print the same lines, each as often, when they differ only in --sort, --reverse and --jobs. With --limit some of these lines are printed and no others. The total of --count is the number of entries the search finds without it. --json and --jsonl print the same records.", "quantifier": "for all worlds, all pairs of command lines that agree as described, all numbers of processes and all executions of both", "why_tests_cant": "a test compares two runs on one tree; the claim relates every pair of executions, with any interleaving of the processes, for all trees and options", "anchors": ["libff/processing.py:60-348", "libff/main.py:242-255", "libff/console.py:100-180", "libff/arguments.py:194-330"]}
{"id": "C129", "title": "With -H tests for hidden files have no effect, and ff says so", "statement": "If a search is started with -H and one of its tests is about hide or hidden, with or without the name of the plugin and however nested, the warning 'file.hide and file.hidden have no effect with -H/--hide' is printed, exactly once; otherwise it is not printed. What it says is true: with -H everything that is found has hide=no and hidden=no, so adding such a test to a search does not change its results, and nothing is found for the opposite tests.", "quantifier": "for all worlds, command lines with valid tests, numbers of processes and executions", "why_tests_cant": "a test tries a few expressions and one tree; the claim is about every expression, wherever in it the test is, and relates the results of pairs of executions for all trees and start directories", "anchors": ["libff/filter.py:27-37", "libff/filter.py:98-99", "libff/logger.py:36-51", "libff/arguments.py:308-331", "libff/entry.py:142", "libff/entry.py:298-302"]}
{"id": "C130", "title": "Failures while results are collected", "statement": "With --sort, --limit, --count, --json and -X, and with the Python API, results are collected first. If meanwhile a process of ff fails by an unexpected error or is killed while it works: nothing is collected twice or without being asked for; the exit status is 4 (3 if a command of -X fails as well), also with --fail; commands of -x are not run then. If the exit status is 0 everything asked for has been collected. ff comes to an end after a limited number of steps. Iterating over a Find object raises an exception if results are missing because of a failure.", "quantifier": "all directory trees, numbers of jobs, failures at any time and interleavings of the processes", "why_tests_cant": "A failure can hit a process at any moment between scanning a directory and sending its results; the result depends on what the other processes have done by then.", "anchors": ["libff/processing.py:CollectiveMixin.loop", "libff/processing.py:BaseProcessing.check_for_failed_processes", "libff/processing.py:Parallel.thread", "libff/walk.py:FilesystemWalker.loop", "libff/find.py:Find.__iter__"]}
{"id": "C131", "title": "The processes agree on the end of the search", "statement": "When one process finds that all are waiting and nothing is left to do, all of them do: none of them goes on searching or is sent back to wait, however often they came, timed out and came again before. They never block each other for good. If a process is killed while it waits for the others, ff notices and ends with an error.", "quantifier": "all numbers of processes and all interleavings of entering, sleeping, timing out, resetting and leaving the barrier", "why_tests_cant": "It needs a timeout or a signal between two instructions of another process.", "anchors": ["libff/context.py:Context.barrier_wait", "libff/processing.py:BaseProcessing.processing_done", "libff/processing.py:BaseProcessing.check_for_failed_processes"]}
{"id": "C132", "title": "Interrupting ff", "statement": "If ff is interrupted with ctrl-c, at whatever moment: it comes to its end after a limited number of steps with an exit status other than 0; each job starts at most one further command; nothing is printed and no command is started that would not have been without the interrupt, or twice; results that have been collected so far are not printed; commands that are running are interrupted as well.", "quantifier": "all directory trees, numbers of jobs, interleavings and moments of the interrupt", "why_tests_cant": "The interrupt can arrive between any two steps of any of the processes.", "anchors": ["libff/main.py:Main.walk", "libff/walk.py:FilesystemWalker.loop", "libff/processing.py:Parallel.__exit__", "libff/processing.py:CollectiveExecProcessing.finalize", "libff/find.py:Find.__iter__"]}
{"id": "C133", "title": "Every file has the attributes of the file plugin", "statement": "Whatever the system says about a file, each attribute that is listed for the file plugin has a value, and one of the type it is listed with; only link and target are missing, exactly for files that are not symbolic links. mount holds exactly for directories on another device than the directory above them, and the root directory.", "quantifier": "all files, states of the system and attributes of the file plugin", "why_tests_cant": "There are 37 attributes with values from many sources: paths, stat(2), databases of users, mount tables, other directories.", "anchors": ["libff/entry.py:Entry", "libff/builtin/file.py:File", "libff/registry.py:Registry.get_attribute"]}
{"id": "C134", "title": "Plugins give what they declare", "statement": "Whatever a file is like, each plugin gives values only for attributes it declares, and of the declared types; so in debug mode, where this is checked and a search ends otherwise, the same is found as with python -O. In debug mode data is refused exactly if it is not as declared; of several values for the same attribute the last one counts. The values that tests, output fields and sorting get are of the types of their attributes.", "quantifier": "all files, all results of the libraries and programs that plugins ask, all plugins", "why_tests_cant": "It depends on what is in the files and what libraries return.", "anchors": ["libff/registry.py:Registry.get_data_from_plugin", "libff/type.py:Type.check_type", "libff/type.py:ListOfStrings.check_type", "libff/builtin/media.py:Medium.cache", "plugins/git.py:Git.process", "plugins/pacman.py:Pacman.process"]}
{"id": "C135", "title": "Leaving an iteration over Find early", "statement": "An iteration over a Find object may be given up after any record, and another one begun with the same object, any number of times. Over all of them together nothing is yielded twice or without being asked for (without sort), and what has not been yielded yet is yielded by the later ones; with sort each iteration gives all records. When an iteration is given up the processes of the search come to their end.", "quantifier": "all directory trees, numbers of jobs, interleavings of the processes, moments of giving up and numbers of iterations", "why_tests_cant": "Further processes are started while the old ones still run; what happens depends on how all of them interleave.", "anchors": ["libff/find.py:Find.__iter__", "libff/processing.py:ImmediateGenerator.__iter__", "libff/processing.py:CollectiveGenerator.loop", "libff/walk.py:FilesystemWalker.start_processes", "libff/context.py:Context.barrier_wait"]}
{"id": "C136", "title": "Profiling does not change what is found", "statement": "With --profile (in debug mode) the search is done by the main process alone, whatever the number of jobs, and entries are not printed. The same entries are found as without, each once, so with --count the same is counted, and ff comes to its end.", "quantifier": "all directory trees and timings of the threads that fill the queues", "why_tests_cant": "The two ways of searching share the queues and the barrier but not the processes; whether a queue is found empty too early is a race.", "anchors": ["libff/main.py:Main.walk", "libff/context.py:Context.setup", "libff/walk.py:FilesystemWalker.loop"]}
{"id": "C137", "title": "--absolute-path and JSON change how paths are shown and not what is found", "statement": "With --absolute-path, and with JSON output, the same files are found as without, and the path of each is its absolute path. All attributes and tests have the same values and outcomes, apart from path, root, dir, pathx and hidden, which are about the path as it is shown.", "quantifier": "all directory trees, search directories, tests, exclude tests and other options", "why_tests_cant": "The option replaces the start directory, from which all paths, the ignore files above and several attributes are derived; tests look at a few of them in one directory.", "anchors": ["libff/main.py:Main.setup_walker", "libff/entry.py:Entry.__init__", "libff/ignore.py:GitIgnore.from_parent_directories"]}
{"id": "C138", "title": "Options that leave out files add none", "statement": "If -H, -I, --one-file-system, --depth or further exclude tests are added to a command line, then every file that is found was found before, too. Each file that is missing is at another depth, or the options are about it or about a directory on the way to it.", "quantifier": "all directory trees, tests, search directories and combinations of these options", "why_tests_cant": "The options are turned into exclude tests that also cut off whole directories and, with -I, bring further ignore files into play; the claim relates two runs.", "anchors": ["libff/arguments.py:ArgumentsPostProcessor.process_arguments", "libff/main.py:Main.setup_walker", "libff/filter.py:Excluder.test", "libff/walk.py:FilesystemWalker.process_entries"]}
