# Formal model of ff: design

The subject is the python sources of gustaebel/ff in /repo (read as text, never run).
The model is written in Lean 4.33; the Lake project is `lean/`.

## Layout

* `lean/Verif/Model/*.lean` – the model, function by function. Every definition cites file and lines of /repo and says where it simplifies.
* `lean/Verif/Spec/*.lean` – small independent specifications; they do not use the model's helpers.
* `lean/Verif/Lemmas/*.lean` – helper lemmas.
* `lean/Verif/Props/*.lean` – the property theorems, named `Cnn_...`, each with an `example` that shows a concrete case meeting its hypotheses.
* `properties.jsonl` – the properties in English. `MANIFEST.json` – property → theorems. `seeded/LOG.jsonl` – mutation experiments.

Conventions: python strings are lists of characters (`Str`), or lists of code points (`UStr`) where surrogates matter; exceptions are values
(`Option`, `Except` or inductive results). A property the code violates has a `..._false` theorem with a concrete witness, plus `..._partial`
theorems for the part that holds. These disagreements are listed below under "Findings".

## Trusted base

* Lean's kernel, and the axioms `propext`, `Quot.sound`, `Classical.choice`; the last section lists them per theorem. There is no axiom of our own,
  no `sorry`, no `native_decide`, no `bv_decide`.
* That the model says what the python code does. It is transcribed by hand; the citations allow to compare.
* That the specifications say what the English statements say.
* CPython and its library, as modelled:
  * the methods of `str` that are used (`PyStr`, `PyInt`); `str.lower` is a parameter, assumed idempotent where this matters; so are the
    tables of Unicode digits (natural sorting);
  * `re`: ordered backtracking, as a small engine (`Re`), for the regular expressions that occur in the code; values of `~` tests are opaque predicates;
  * doubles: nearest representable number, ties to even, unbounded exponent (`roundHalfEven`);
  * `list.sort` is stable and uses `<` only (`PySort`);
  * `time.strptime` and the calendar for the formats of the code (`Time`), the time zone is an arbitrary function; `stat.filemode` and the constants
    of `stat` (`Status`); `shlex.split` (`Find`); `str.splitlines` (`Git`);
  * the clock, the order of `os.scandir`, the results of `os.stat`, `/proc/mounts`, the output of git and libmagic are parameters;
  * `multiprocessing`: queues, barrier, shared values as state machines (`Walk`, `Protocol`, `Immediate`, `Halt`, `CollectHalt`, `Context`); every interleaving is allowed.
    That the barrier lets all pass or none is shown in `Barrier` from the code of `threading.Barrier` and `multiprocessing.Condition`; semaphores and the lock are trusted;
  * `sqlite3`: a database is a list of tables with transactions; `vacuum` fails in an open transaction; `like` as documented; `pickle.loads`
    undoes `pickle.dumps` (`Cache`);
  * `textwrap.fill` (`Message`), which characters `\w`, `\d` and `str.strip` know are parameters; `hashlib` is a parameter (`Hash`);
  * `sys.stdout`, i.e. CPython's `TextIOWrapper` and `BufferedWriter`, and the guarantee of pipe(7) for writes of at most PIPE_BUF bytes (`Output`); what could not be written stays in the
    buffer, and the status is 120 if it cannot be written in the end either (`Ending`);
  * the kernel following paths and `os.path.realpath` (`Link`), without permissions and with at most 40 links for the kernel;
  * `subprocess`: starting a command succeeds, fails with E2BIG, or fails otherwise; E2BIG depends on the command alone (`Processing`).

## What is modelled

| Code | Model | Not modelled |
|---|---|---|
| `path.py` | `Path` – all | |
| `entry.py` | `Entry` (paths, depth, hide, hidden, mountpoints), `Status`, `StatAttr` (what comes from stat(2), user and group names), `Link` (link, target, broken), `Attributes` (all of them together), `Reference` | |
| `parser.py` | `Parser`, `Expression` – tokens, grammar, optimiser, test syntax | debug format |
| `filter.py` | `Search` – Matcher, Excluder | |
| `type.py`, `convert.py` | `Types`, `Convert`, `Field`, `Time` | terminal colours of types |
| `ignore.py`, `builtin/ignore.py` | `Glob`, `Walk`, `Search`, `IgnorePlugin`, `PathGlob` – patterns, order of files, parents, caches | |
| `walk.py` | `Walk` (tree, chunks), `Os` (listing directories, errors), `Protocol`, `Immediate` (processes and queues), `Halt` (the same with failures), `Context` (commands) | `Interrupt` has SIGINT; a worker is taken to ignore it from its first step |
| `processing.py` | `Processing`, `Protocol`, `Immediate`, `Halt`, `CollectHalt`, `Context`, `Pool` (parallel commands after sorting) | |
| `context.py` | `Context`, `Barrier`, `Interrupt` | debug locks |
| `console.py` | `Console`, `Output` (writing) | detection of the terminal |
| `field.py` | `Field`, `Processing`, `Find` (`AttributeDict`) | |
| `registry.py`, `plugin.py`, `attribute.py` | `Registry`, `Cache`, `Loading`, `Setup`, `Data` (what plugins return, checks in debug mode) | |
| `cache.py` | `Cache` | timeouts of locks (they only delay) |
| `argparse.py`, `arguments.py` | `ArgParse`, `Arguments`, `Main`, `Message` (help) | texts of messages |
| `logger.py` | `Message` | debug messages |
| `main.py` | `Main`, `Arguments`, `Failure`, `Search`, `Context`, `Ending` (closed pipes), and all of it put together in `Whole`; `Profile` (the search with --profile) | statistics of the profiler |
| `find.py` | `Find` – records and queries; `Api` – a search by means of `Find`; `Iterate` – leaving an iteration early and iterating again | |
| `plugins/git.py`, `plugins/hash.py`, `builtin/grep.py`, `builtin/mime.py` | `Git`, `Hash`, `Grep` | |
| `plugins/introspect.py`, `plugins/pacman.py`, `builtin/media.py` | `Introspect`, `Elf`, `Media`; what pymediainfo, pacman and `ast` return are parameters | |
| errors while reading, in all plugins that read files | `Reading` | |
| `plugins/tar.py`, `plugins/xattr.py`, `plugins/fs.py` | `Plugins` | reading of archives, the system calls |
| `help.py`, `manpage.template` | `Help`, `Manual`, `ManualText` | calling man(1); roff is a small reader in `Spec/Help` that knows what ff writes |

### The test suite of the project

`lean/Verif/Props/Suite.lean` runs the test suite of the project (/repo/tests: 145 command lines, 49 glob patterns and the tests of the class `Find`) with the model:
argument parsing, expressions, searching, output, commands and exit statuses put together must give what the suite expects. All of them do. Not included are
test-02 (it needs pictures and films) and the texts of error messages (the exit status is compared instead). These are checks of the model by examples, no proofs of
properties, and no property refers to them.

## How each group is proved

| Id | What is modelled | How it is proved |
|---|---|---|
| C01–C04 | `Parser`, `Matcher._test` on token lists | syntax trees with an unparse relation; induction over trees; grammar equivalence; invariance under permutation |
| C05 | `expression_regex` in the regex engine, `parse_test` | symbolic execution of the engine on structured inputs |
| C06, C08–C10, C63 | `Excluder`, depth, hide, samedev; walk of a tree | induction over the tree, from the command line on |
| C07, C11 | `FilesystemWalker` and the main process as transition systems | invariants for every interleaving; race witnesses |
| C12 | chunk arithmetic | list lemmas |
| C13–C18 | `Glob`, `GitIgnore`, `scan_directory`, `from_parent_directories` | regex engine against an inductive relation of wildcards; last match; permutation lemmas |
| C19–C28, C66 | `Type` classes, `convert.py` | arithmetic, bits, digit round trips, engine execution |
| C29–C33, C64, C65 | `console.py`, output fields | splitting lemmas, grammar of JSON texts, induction over outputs |
| C34–C39 | `CollectiveMixin`, `SortFields`, counting | stable sort lemmas, permutation invariance of folds |
| C40, C41 | `ExecFields`, splitting after E2BIG | induction over template items and entries |
| C42–C44 | shared state, jobs, exit status | invariants over all interleavings of all processes |
| C45–C48 | cache as a state machine with transactions and crashes | invariants over histories |
| C49–C51 | `Registry`, type hierarchy | case analysis |
| C52–C58, C67 | `argparse.py`, `arguments.py` | induction over argument vectors |
| C59–C62 | `path.py`, `entry.py` | list lemmas |
| C68–C70 | sizes and times as texts | arithmetic of rounding, calendar arithmetic, arbitrary time zones |
| C71–C74 | stat(2), modes, names, reference files | bits, invariants of caches, path lemmas |
| C75–C77, C80, C81 | plugins git, ignore, grep, mime | induction over paths and lines, invariants of caches |
| C78, C79 | `find.py` | the automaton of `shlex` against a grammar of quoted words |
| C82–C84 | FF_OPTIONS, conflicts, `-o file` | composition of the argument parser and the plan |
| C85, C86 | workers that print or run commands | invariants for every interleaving; a potential for termination |
| C87 | a whole run | composition of all of the above, with an independent definition of what a command line asks for |
| C88 | a whole search by means of `Find` | composition; records against those of `--jsonl` |
| C89 | commands after sorting: main thread, threads, queue | invariants for every interleaving, a potential for termination |
| C90 | `ColorConsole` and LS_COLORS | a grammar of LS_COLORS; last item of a key |
| C91 | `linkInfo` on `os.path.realpath` and the walk of the kernel | paths leading to files as an inductive relation, induction on the number of links followed |
| C92 | the processes with failures at any time | simulation by the processes without failures, invariants for every interleaving, a potential for termination |
| C93, C94 | plugins shebang and py | induction over lines and directories; import statements against Python's rules |
| C95, C96 | plugins medium and pacman | folds over tracks; parsing of what pacman prints |
| C97, C98 | which files plugins open, which exceptions are caught | case analysis |
| C99 | the exit status of a run that ends before the search | a second model of the same functions that keeps the kind of the exception, proved to fail exactly when the first one does (`planFail_none`); induction over the grammar for the first test that is not accepted |
| C100, C101 | the operating system as functions that list and examine paths, with errors | what can be seen as an inductive relation, against the tree the walk works on |
| C102 | several whole runs (`Results`, on the model of C85 and C87) | from the characterisation of the results of each run; options that have to agree are listed in `SameChoice` |
| C103 | loading of plugin files: directories with entries, what executing a file defines (`Loading`) | the plugin files give one list of definitions, induction over it with the state of the registry |
| C104 | the functions of C99 with plugins whose set-up fails (`Setup`) | congruence of each function, of the parser by induction on its steps; every test of an accepted expression is looked at |
| C105 | `hash.py`: reading in blocks of 8192 bytes, with a failure after any number of reads (`Hash`) | induction over the reads; the algorithm is a parameter whose sum does not depend on how the content is cut |
| C106, C107 | `logger.py`, the help of `argparse.py`, and CPython's `textwrap` with its regular expression for words (`Message`) | each pass of the loop preserves what is not blank and makes progress; words without hyphens are chunks |
| C108, C109 | `plugins/tar.py`, `xattr.py`, `fs.py` (`Plugins`); `tarfile`, the system calls and the order of sets are parameters | any order of a set; lookup in a table without duplicates |
| C110 | how lines are written by `console.py`: CPython's text and byte buffers, write(2) to a pipe by several processes (`Output`) | a short record is a single call; invariant for every interleaving of calls |
| C111 | `help.py`: `process` with its regular expression, sections, items, the four pages (`Help`); roff with the macros `.SH`, `.IP`, `.br` (`Spec/Help`) | every replacement is seen as what it replaces, induction along `re.sub`; line by line |
| C112 | `help.py`: `wrap`, `parse_lines`, `include`, `FullManPage` (`Manual`), `manpage.template` (`ManualText`, generated), the help texts of `arguments.py` (`HelpText`, generated), `print_manpage_help` | induction along the lines: the characters of the paragraphs are those of the lines; the template is checked by a boolean function proved sound; each option is one paragraph |
| C113 | the patterns `include` shows (`Manual`), `parse_time` (`Convert`, `Time`) | from C25 and C69; a year needs four digits |
| C114 | `exceptions.py` (`exitCodes` of `Manual`), `startStatusU` (`Setup`), `exitStatus` and `batchStatus` (`Context`) | by cases on all ways a run ends |
| C115 | `Ending` (`collectedEnd`, `immediateEnd`), `Context` | invariant: what has been received followed by what is in the buffer is what has been written, or the pipe is closed and something is left in the buffer |
| C116 | `Whole` | from C87: the entries of both searches correspond to each other, with equal absolute paths |
| C117 | `Field`, `Types`, `Search` | from C05, C22, C24, C25, C26, C66, C70: the printed text is read as the value it was printed for |
| C118 | `Needed` | the generators as functions that also return the tests made; induction over the tree: as long as a test is made both outcomes are possible |
| C119 | `Start` | the words given to the interpreter and the search for modules along `sys.path`, computed |
| C120 | `Elf` | induction over the dynamic table; sorting is a permutation |
| C121 | plugins that read files, on top of the model of C45 | instance of C45 with whole seconds as tags; explicit histories for every change within a second |
| C122 | glob patterns in tests | on top of C05, C15 and C27; names of entries are last components of their paths |
| C123 | attributes from stat(2) in a whole search | derivations in the grammar of C01, C19 and C20 for the values, explicit counterexamples |
| C124 | `parse_args`, `Namespace` | the effect of each element on its own setting only; the settings as folds over the elements about them |
| C125 | `process_arguments` in a whole run | the plans of the two runs compared; C87 and C102 for the results |
| C126 | `parse_args` | `Reads` says which words are read as which options; accepted iff readable, by induction on the loop |
| C127 | the choice of the console | the value of `--color` by C126, the output by C32 and C87 |
| C128 | two runs of the program | the results by C102, the arrangement by C35, the text by C39 and C87 |
| C129 | the warning of the matcher, two runs of the program | induction on the parser gives the tests of an expression; the results by C87 and C102, the attributes by C61 |
| C130 | the processes while results are collected, with failures at any time | simulation by the processes without failures, an invariant relates failures and exit status, a potential for termination |
| C131 | `barrier_wait` with `Barrier` and `Condition` of the standard library, step by step | invariants on the numbers of sleepers, semaphores and holders of the lock; potentials for progress |
| C132 | an interrupt at any time in the processes of C92, C130 and C89 | the invariants of C92 and C89 hold after the interrupt, so do their consequences |
| C133 | all attributes of the file plugin, with the system as a parameter | case analysis over the declared attributes |
| C134 | what each plugin yields, and the check of types in debug mode | case analysis; dictionaries as lists; `C134_search` gives the hypotheses on types of C35–C39 and C87 |
| C135 | iterations over `Find` that are given up and begun again, in `Iterate`; the barrier waits for `jobs` + 1 processes while there are more | simulation of the first iteration by `PStep`; conservation of entries |
| C136 | the search in the main process in `Profile` | simulation by one worker and main (`C11`) |
| C137 | the start directory and its absolute path, in `Whole` and `Entry`; the spec compares two command lines, in `Spec.Absolute` | the same chains of names lead to the same files; `splitext` depends on the last part only |
| C138 | two command lines, in `Spec.Narrow` | from the meaning of a command line (`C87`) |

## Findings

Where the code does not do what its documentation or a property says. Items with a theorem are proved of the model; the others were noticed while
reading.

Expressions
* `( or a )` is accepted: an alternative may be empty at the start of a bracket; brackets of different kinds close each other (`C02_false`).
  With `-d` the tests are wrapped in brackets, so `or name=x` and `a ) ( b` are accepted (`C02_false_contrast`).
* Values with a newline are refused (`C05_false`); `size+=` is a test for `+` with the value `=` (`C05_quirk`).
* With `-H` and a test for `hidden` ff warns that the test has no effect, but `ff -H -D .. hidden=no` finds nothing, since `..` begins with a dot
  (`C129_false`).
* `--exclude` with NOT or brackets crashes (`C06_nested_crashes`); a syntax error in it is not reported as a usage error.
* A reference in a test on a list attribute passes the type check and then crashes (`C51_list_crashes`).

Types and values
* Symbolic modes with several clauses about different classes are mixed up: `u=rw,go=r` is 666 (`C21_false`). `X` and `u=g` are ignored.
* Durations: any character is accepted as a unit, `5x` is 0 seconds (`C23_false`).
* Sizes go through doubles (`C24_false`); the manual says KiB is 1000, the code says 1024 (`C24_manual_false`).
* All-digit date patterns are unreachable, they are read as seconds (`C25_false`).
* The check of Boolean values is an `assert`, which `python -O` strips (`C26_false`).
* `--case ignore` lower-cases regular expressions, `\S` becomes `\s` (`C27_regex_quirk`).
* `25:30s` is accepted as 30 seconds ago, `202005 5` is accepted as a date. Every date of the form YYYYMMDD is read as seconds since 1970
  (`C25_compact_false`).
* A printed time in the second pass of an hour that is repeated when clocks are put back is read as the first pass (`C70_false`).
* `perm:h` begins with `?`.

Plugins
* One plugin file that cannot be executed or read, or that defines a plugin with an unknown type, ends every run with exit status 10, even
  `ff --version` (`C103_broken_false`, `C104_loading_false`).
* A symbolic link to itself in a plugin directory hides the plugin files that are listed after it (`C103_hidden_false`).
* A plugin that is defined above its own type is refused (`C103_order_false`); two attributes of the same name with different types end in a
  traceback (`C103_twice_false`).
* After loading has failed once, a second `Find` in the same program is created without an error and knows no attributes (`C103_again_false`).
* A plugin that cannot be set up gives status 2 instead of 10 inside of a reference (`C104_reference_false`).

Reading the file system
* With `-L` directories that have been visited are not remembered: a directory with two links to itself has more than 2^40 entries
  (`C101_loop_false`). Broken links are passed over without a warning, `-L broken=yes` finds nothing (`C101_broken_false`).
* `ff --one-file-system l`, where `l` is a symbolic link to a directory on another device, finds nothing (`C63_link_false`).
* Files in directories whose paths have 4096 bytes or more are not found, as paths are joined instead of opened step by step
  (`C100_deep_false`).

Ignore files and globs
* `abc/**` matches `abc`, `a[!b]c` matches `a/c`, `foo**/bar` matches `foobar`, `foo` matches `foo` with a final newline, an unclosed `[`
  loses its last character, `/**` reaches one level only, backslash escapes are unsupported, `[!]` and `[z-a]` crash (`C14_false`,
  `C14_false_anchored`). `\*` is not quoted, `]` cannot be the first of a class, `[[:digit:]]` is not known, and blanks at the
  beginning of a line or quoted at its end are lost (`C14_false_quoted`).
* Of two ignore files in a directory the one that is listed last by the operating system wins (`C17_false`).
* The ignore files in the direct parent of a start directory other than `.` are missed (`C18_false`).

Search
* A worker may see the queue empty although its own feeder thread has not written yet; then the search may end early (`C07_false`). The same
  holds for the results on their way to the main process (`C11_false`).
* An OSError in a test drops the rest of the entries of the directory.
* `-D a -D a`, and paths that begin with exactly two slashes, escape the check for overlapping directories (`C56_false`).
* Directories at both ends of the arguments are taken apart wrongly, and the first of two equal words is removed (`C55_false`).
* A directory that is a mountpoint is attributed to the file system of its parent (`C62_false`).
* A reference file has another depth than the file it refers to when `/` is searched (`C74_root_false`), a relative path with `-a`
  (`C74_absolute_false`), and it is not found if it is named without a directory and the current directory is not searched (`C74_name_false`).
* A command that has been put into the queue is lost if all workers find the queue empty before it has been sent (`C85_false`).
* Lines are written with one `write` per buffer; long lines of several processes can be mixed up.
* `-x` together with `-X` runs `-x` only, without a warning.
* A worker that is killed while it waits in the barrier (i.e. while it is idle) makes ff hang forever: `notify_all` of the next process that comes to the barrier or
  times out waits for the killed one to wake up, with the lock held; `check_for_failed_processes` is not reached anymore (`C131_hang`, `C131_false`).
* Iterating over a `Find` object ends as usual if a process has failed; the exit code is only looked at by the command line (`C130_find_false`). After a failure the
  commands of `-x` are not run on collected results, but the command of `-X` is.
* With `--halt soon` a thread that is waiting for work may start one more command after the failure (`C89_halt_false`); so may each of the other processes
  during the search (`C92_none_false`).

Command line
* Fixed choices are never enforced (`C54_never_refused`, `C54_false`); `--halt foo` counts every command as failed without waiting
  (`C42_halt_false`).
* An option with an argument at the end of a bundle gets the empty string (`C52_false`). `--sort=-x` takes `-x` for the next option.
* ValueErrors of ranges and jobs are uncaught (`C58_ranges_refused`); a slice with a final newline is accepted.
* FF_OPTIONS that end with an option like `--sort` swallow the first argument of the command line, and an unclosed quote ends in a traceback
  (`C82_false`); `-x` in it swallows the whole command line (`C82_command`).
* In `-o file,file` only the first one is replaced, the second is refused (`C84_twice`).

Exit status
* An attribute that does not exist gives 2 instead of 11 inside of a reference (`C99_reference_false`). `-e '('` and `-D missing` end with a traceback and status 1
  (`C99_one_false`).

Output
* Undecodable names are printed like other names (`C29_false`); files directly in `/` are printed as `//x` (`C29_root_false`).
* With LS_COLORS unset coloured output prints nothing (`C32_false`).
* `*.tar.gz=31` in LS_COLORS colours all `.gz` files (`C90_suffix_false`), `ln=target` puts the word "target" into an escape sequence
  (`C90_target_false`), names of directories are coloured by their extension (`C90_dirname_false`).
* `join` of path.py puts an absolute second part behind the first one, so an absolute symbolic link that is found below a directory is reported as
  broken and has a wrong target (`C91_absolute_false`). A link such as `missing/../b` is not reported as broken (`C91_dots_false`).
* JSON records with the same label twice collapse; sets as list attributes crash `json.dump`.
* One-letter attribute names are refused in fields.

Collecting
* Sorted output is reproducible only if different entries have different keys: `a` and `A` (`C36_false`).
* Natural sorting compares texts with numbers: `x.tar.gz` and `x/tar1` (`C37_false`), also missing values (`C37_missing_false`).
* `--count`: no `_total` without results (`C39_false`), mixed keys crash (`C39_mixed_false`), repeated attributes are counted twice
  (`C38_false`, `C38_names_false`), labels overwrite each other (`C38_modifier_false`).
* `-X` with an entry that does not fit on a command line drops it and all that follow, and ff exits with 0 (`C41_false`).

Cache
* Keys collide for undecodable names (`C46_false`), so that a file gets the data of another one (`C45_false`).
* Setting up a plugin drops the tables of all plugins whose names begin with its name (`C47_false`); if both are used the search crashes
  (`C47_crash_false`).
* `--clean-cache` fails and removes nothing whenever there is something to remove (`C48_false`), and takes undecodable names for stale
  (`C48_name_false`).
* `Cache.registered` is a class attribute; in debug mode a second `Find` in a process with the same cached plugin fails.

Plugins and library
* git: a worktree or submodule, where `.git` is a file, is not recognised (`C75_gitfile_false`); names that git quotes, names with spaces and renames are
  misread (`C76_quoted_false`, `C76_space_false`, `C76_renamed_false`).
* Records of `Find`: of attributes that differ only in dots and underscores one gives the value of the other (`C78_false`); a missing attribute
  raises KeyError instead of AttributeError.
* grep: `grep.lines=a` is false for a file with the line `a`, since lines include their ends (`C80_equal_false`). mime: a type without a slash raises IndexError.
* shebang: the first line anywhere in a file that begins with `#!` is taken (`C93_false`). py: `import a, b` gives `a` only, `from . import x` nothing,
  `from ..m import x` in p/q gives `p.q.m` (`C94_several_false`, `C94_package_false`, `C94_dots_false`).
* pacman: the path under which a file is found is compared with absolute paths (`C96_relative_false`).
* A named pipe that is called `x.tar`, `x.png` or `.gitignore` makes ff wait forever if tar, medium or ignore is used, any one if py is used (`C97_false`).
* A file called `x.tar` that is no archive, or an archive `x.tar.lz`, ends a search that uses tar; an ignore file that is not text ends every search that
  uses ignore files; shake_128 and shake_256 end every search (`C98_format_false`, `C98_shake_false`). With fs, a directory that vanishes ends the search (`C98_fs_false`).
* Messages and help: with COLUMNS=1 or 2 (or such a terminal) every warning ends in a ValueError, as does `-h` (`C106_narrow_false`, `C107_narrow_false`);
  a line break in a name is shown as a blank and names are broken after hyphens (`C106_name_false`, `C106_hyphen_false`); `-h` shows -x and -X without
  `<cmd>`, since the action is missing in the list at argparse.py:164 (`C107_remainder_false`).
* Archives: tar.members is a set, so it is printed in another order by each process (`C108_order_false`), cannot be printed with --json (`C108_json_false`), and sorting by it
  fails or depends on the order in which files are found (`C108_sort_false`, `C108_order_of_archives_false`). One extended attribute that cannot be read hides those after it
  (`C108_xattr_false`).
* fs: an error of `statfs` ends the whole search (`C109_error_false`); for a file that is a mount point the type of its directory is shown (`C109_mount_false`). A cifs mount with version 2 or 3 of the protocol is "unknown" and not remote, its number is missing in the table (`C109_remote_false`).
* Output: lines of more than 4096 bytes (long values, --jsonl with many fields) that several jobs print to a pipe may be mixed (`C110_long_false`).
* Help: one plugin without a docstring makes --help-attributes and --help-plugins fail with an exception (`C111_doc_false`); a description that begins with an apostrophe is not
  shown (`C111_quote_false`), nor are backslashes (`C111_backslash_false`).
* Help: the manual shows years of patterns with two letters (`YY-mm-dd`), values written this way are refused (`C113_false`); those without separators are taken for
  seconds (`C113_number_false`).
* Start: status 1, which the manual reserves for `--fail`, is also that of the traceback for an exclude test that is an unbalanced bracket (`C114_one_false`).
* End: an interrupt from the keyboard gives status 1 as well (`C114_interrupt_false`). If the reader of the output closes the pipe, the `except BrokenPipeError` of `Main.walk` does not help: with `--sort` and the like Python's final flush fails and the status is 120 (`C115_status_false`), and if the workers print, which is the default, they die from it and the status is 4 with a message about unrecoverable errors (`C115_immediate_false`).
* Values: permissions are printed as decimal numbers (`-o perm` prints 420 for 644) but read as octal ones, and `perm=-rw-r--r--` is accepted and means 0 since only `-rw` is read (`C117_mode_false`); durations are printed in seconds and read in minutes (`C117_duration_false`); a file with the name `{}a` cannot be found with `name={}a`, which is a reference (`C117_name_false`).
* Order of tests: the speed of a bracket is the sum of the speeds of its tests, so a slow test is made before a bracket of three normal ones, and an alternative that is a slow test before one with three normal tests (`C118_brackets_false`, `C118_alternatives_false`).
* Current directory: `bin/ff` runs `python -O -m ff`, and with `-m` the current directory is the first one that is searched for modules; a file `ff.py` (or `json.py`, `libff/__init__.py`) in the directory in which ff is called is executed (`C119_taken`, `C119_false`).
* ELF: the names are read from dynamic sections, not from the segment the system uses, so programs without section headers seem to need nothing (`C120_stripped_false`).
* Cache: the tag of cached data is the modification time in whole seconds of the entry itself, so changes within a second (`C121_second_false`), of the permission to read a file (`C121_unreadable_false`) and of files behind symbolic links (`C121_link_false`) go unnoticed.
* Glob tests on `dir`, `root`, `link`, `target`, `namex` and `pathx` with a pattern without slashes are applied to the name of the entry, so `dir%src` finds nothing in `src` and `link%*.txt` looks at the name of the link (`C122_false`, type.py:174); `name%src/` never finds a directory (`C122_directory_false`).
* Documentation: the three examples for executable files find different files (`C123_executable_false`); "newer than" and "bigger than" include equal (`C123_newer_false`); "a file called setup.py" is a substring test, and `lines:foo` finds `FOO` (`C123_substring_false`).
* Options: an option with an optional argument takes a following test as its argument, and options between tests are refused (`C124_false`); `-I` is not the same as `--exclude ignored=yes`, which does not look at the ignore files of the directories above (`C125_false`). `--sort=-H` is not refused but sorts by path and hides files, and in `-xls` the letters are read as options and then run as the command `-l s` (`C126_more`).
* `Find(jobs=0)` yields nothing (`C88_jobs_false`); `Find` removes directories from the list the caller passed; a `Find` object can be iterated only
  once; leaving the iteration early leaves the workers behind.
* Interrupts: ctrl-c while the commands of `-x` are made for sorted results stops none of those that are queued, ff runs all of them first
  (`C132_queued_false`, `C132_pool_false`). Workers ignore SIGINT and the commands they start inherit this, so ctrl-c does not stop them
  (`C132_running_false`).
* The medium plugin passes on what pymediainfo returns for tags. pymediainfo makes numbers of values that occur several times in a track, so a title can be a
  number; in debug mode this ends the search (`C134_medium_false`).
* `pseudofs` does not know file systems like cgroup, fusectl, autofs and ramfs, but tmpfs.
* If a loop over a `Find` object is left early, the processes of the search keep running until python ends (`C135_running_false`), what main has received with the
  last record is lost (`C135_chunk_false`), and a second loop over the same object starts further processes although the barrier does not wait for more of them, so
  it can end too early (`C135_lost_false`).
* With `-I`, `--absolute-path` changes which files are found: the start directory `.` has the empty dirname, so that the ignore file in the parent directory counts,
  while that of the absolute path begins one directory higher (`C137_ignore_false`). In a hidden directory it also makes all files `hidden` (`C137_hidden_false`).


## Axioms per theorem

Printed by `#print axioms` for every theorem listed in MANIFEST.json. No other axiom occurs; `vcheck` looks at every declaration.

* no axioms: `C34_all`, `C41_single`, `C46_false`, `C48_name_false`, `C82_none`, `C108_xattr`, `C108_xattr_unreadable_partial`, `C110_terminal_false`, `C114_interrupt_false`, `C132_status`

* `propext`: `C15_directory`, `C16_only_below`, `C25_patterns_partial`, `C25_false`, `C29_encode_partial`, `C33_width`, `C37_number`, `C41_false`, `C42_halt_false`, `C44_modes`, `C48_keeps_partial`, `C51_builtin`, `C55_explicit`, `C60_abspath`, `C80_count`, `C80_binary`, `C80_text`, `C81_parts`, `C89_halt_false`, `C91_other`, `C92_status`, `C94_several_false`, `C94_package_false`, `C96_witness_false`, `C96_blank_false`, `C98_fs_false`, `C101_not_entered`, `C101_examined`, `C101_broken_false`, `C108_output_partial`, `C108_order_false`, `C108_sort_false`, `C108_order_of_archives_false`, `C114_meaning`, `C118_enough`, `C120_only`, `C131_false`, `C132_collected`, `C132_pool_false`, `C132_running_false`, `C136_progress`

* `Quot.sound`, `propext`: `C01_empty`, `C03_optimize_irrelevant`, `C03_optimize_sound`, `C03_optimize_sorted`, `C05_roundtrip_partial`, `C05_reference`, `C05_sound`, `C05_spellings`, `C06_empty`, `C07_sound`, `C08_sound`, `C11_sound`, `C12_result_chunks`, `C12_share`, `C13_last`, `C15_scope`, `C16_override`, `C16_order`, `C16_scope`, `C16_search`, `C17_selected`, `C17_all_files`, `C21_meaning`, `C21_symbolic_partial`, `C24_bytes`, `C24_unit`, `C29_false`, `C34_slice`, `C34_pages`, `C41_prefix`, `C42_counts`, `C45_latest`, `C45_pending`, `C46_partial`, `C46_backslash_partial`, `C48_uncommitted_partial`, `C48_name_partial`, `C49_type`, `C50_first`, `C50_names`, `C50_order`, `C51_accept_iff`, `C51_refl`, `C51_symm`, `C55_leading_partial`, `C58_ordered`, `C58_slice`, `C58_slice_refused`, `C59_entry`, `C59_namex`, `C59_splitext_spec`, `C59_splitext_unique`, `C60_join_split`, `C60_entry`, `C61_depth`, `C61_hide`, `C61_hidden`, `C64_syntax`, `C73_names`, `C74_same_partial`, `C78_other`, `C85_sound`, `C85_complete_partial`, `C86_bounded`, `C86_end`, `C86_collect_bounded`, `C88_jobs_false`, `C89_order`, `C89_complete`, `C89_status`, `C89_halt`, `C89_bounded`, `C92_complete_partial`, `C92_success_partial`, `C92_bounded`, `C93_false`, `C94_sorted`, `C94_dots_false`, `C95_size`, `C95_format`, `C95_duration`, `C96_relative_false`, `C100_warnings`, `C106_width`, `C108_test`, `C110_whole_partial`, `C110_paths`, `C110_complete_partial`, `C110_bytes`, `C110_single`, `C110_end_false`, `C115_collected`, `C115_status_partial`, `C115_immediate`, `C120_names_partial`, `C120_sections`, `C121_uncached`, `C126_accepted`, `C130_sound`, `C130_status`, `C130_exit`, `C130_exec`, `C132_pool_partial`, `C135_sound`, `C136_sound`

* `Classical.choice`, `Quot.sound`, `propext`: `C01_boolean_semantics`, `C01_unambiguous`, `C02_balanced_partial`, `C02_not_followed_partial`, `C02_accepted_is_formula_partial`, `C02_accept_iff_partial`, `C02_false`, `C02_false_contrast`, `C04_complement`, `C04_missing`, `C05_false`, `C05_quirk`, `C06_excluded_iff`, `C06_accepted`, `C06_nested_crashes`, `C07_complete_partial`, `C07_false`, `C08_prune`, `C09_hide`, `C10_matcher`, `C10_depth`, `C11_complete_partial`, `C11_false`, `C12_search_chunks`, `C14_component`, `C14_path_partial`, `C14_path`, `C14_false`, `C14_false_anchored`, `C14_false_quoted`, `C15_markers`, `C15_hash`, `C15_pattern`, `C17_false`, `C18_dot_partial`, `C18_abs_partial`, `C18_false`, `C19_order`, `C19_reference`, `C19_input`, `C19_trichotomy`, `C20_bits`, `C20_reference`, `C21_false`, `C21_octal`, `C21_accepted`, `C22_sum`, `C22_roundtrip`, `C22_minutes`, `C22_output`, `C23_accept_iff_partial`, `C23_missing_unit_partial`, `C23_false`, `C24_sound`, `C24_exact_partial`, `C24_error_partial`, `C24_false`, `C24_manual_false`, `C25_float_partial`, `C25_number_partial`, `C25_compact_false`, `C26_debug_partial`, `C26_documented`, `C26_optimised`, `C26_false`, `C27_string`, `C27_path`, `C27_insensitive`, `C27_exact`, `C27_exact_path`, `C27_regex_quirk`, `C28_any`, `C28_string`, `C29_partial`, `C29_root_false`, `C30_json`, `C30_jsonl`, `C31_line`, `C31_json`, `C32_partial`, `C32_output_partial`, `C32_width_partial`, `C32_false`, `C33_pad`, `C35_sorted`, `C35_permutation`, `C35_unsorted`, `C36_values`, `C36_partial`, `C36_false`, `C37_names_partial`, `C37_paths_partial`, `C37_false`, `C37_missing_false`, `C38_lines_partial`, `C38_json_partial`, `C38_false`, `C38_names_false`, `C38_modifier_false`, `C38_fields`, `C39_partial`, `C39_false`, `C39_mixed_false`, `C40_command`, `C40_literal`, `C40_verbatim`, `C40_batch`, `C40_batch_refused`, `C41_once_partial`, `C41_paths_partial`, `C42_status`, `C42_failed`, `C42_batch`, `C43_option`, `C43_halt`, `C43_never`, `C43_search`, `C43_search_all`, `C43_search_upTo`, `C44_immediate`, `C44_collective_partial`, `C45_hit`, `C45_partial`, `C45_saved`, `C45_false`, `C47_partial`, `C47_versions`, `C47_false`, `C47_crash_false`, `C48_partial`, `C48_false`, `C49_unqualified`, `C49_qualified`, `C51_search`, `C51_list_crashes`, `C52_spellings_partial`, `C52_equal_partial`, `C52_table`, `C52_false`, `C53_rest_verbatim`, `C54_never_refused`, `C54_false`, `C55_trailing_partial`, `C55_conserved`, `C55_false`, `C56_refused_iff_partial`, `C56_disjoint_partial`, `C56_false`, `C57_jobs`, `C57_numeral`, `C58_ranges`, `C58_ranges_refused`, `C60_join_split_exception`, `C62_mount_longest_partial`, `C62_false`, `C63_device_partial`, `C63_link_false`, `C63_one_file_system`, `C65_number`, `C65_decimal`, `C66_type`, `C67_default`, `C68_close`, `C68_output`, `C68_monotone`, `C68_parse`, `C68_beyond`, `C69_date`, `C69_minute`, `C69_second`, `C69_skipped`, `C69_time`, `C69_no_date`, `C69_no_minute`, `C69_no_second`, `C69_no_time`, `C70_shown`, `C70_roundtrip_partial`, `C70_false`, `C71_type`, `C71_perm`, `C71_exec`, `C71_size`, `C71_empty`, `C72_type`, `C72_perms`, `C72_injective`, `C72_output`, `C74_root_false`, `C74_absolute_false`, `C74_name_false`, `C75_repo`, `C75_gitfile_false`, `C76_tracked_partial`, `C76_dirty_partial`, `C76_quoted_false`, `C76_space_false`, `C76_renamed_false`, `C77_verdicts`, `C77_order`, `C78_access_partial`, `C78_false`, `C79_words`, `C79_unique`, `C79_quoted`, `C80_lines`, `C80_contains`, `C80_equal_false`, `C82_combined_partial`, `C82_tests_twice`, `C82_command`, `C82_false`, `C83_refused`, `C83_mode`, `C83_count`, `C83_exec`, `C83_kept`, `C83_accepted`, `C84_file`, `C84_other`, `C84_twice`, `C85_false`, `C86_no_deadlock`, `C86_collect_no_deadlock`, `C87_batch_partial`, `C87_count_partial`, `C87_console_partial`, `C87_exec_partial`, `C87_collect_partial`, `C87_text_partial`, `C87_fields`, `C87_json`, `C87_output_partial`, `C87_halt_partial`, `C88_entries_partial`, `C88_same_partial`, `C88_refused`, `C89_run_partial`, `C89_no_deadlock`, `C90_name_partial`, `C90_dir_partial`, `C90_path_partial`, `C90_other_partial`, `C90_suffix_false`, `C90_target_false`, `C90_dirname_false`, `C91_target_partial`, `C91_broken_partial`, `C91_absolute_false`, `C91_dots_false`, `C92_sound`, `C92_halt`, `C92_stops`, `C92_no_deadlock`, `C92_none_false`, `C93_some`, `C93_first_partial`, `C93_regular`, `C94_dots`, `C94_imports_partial`, `C94_found_partial`, `C94_handled`, `C95_tags`, `C96_installed_partial`, `C97_regular_partial`, `C97_names_partial`, `C97_false`, `C98_fault_partial`, `C98_read`, `C98_format_false`, `C98_shake_false`, `C99_field`, `C99_test_attribute`, `C99_test_expression`, `C99_test_usage`, `C99_first`, `C99_attribute`, `C99_expression`, `C99_fields`, `C99_tests`, `C99_begins`, `C99_shown`, `C99_one_false`, `C99_reference_false`, `C100_tree`, `C100_only`, `C100_all_partial`, `C100_deep_false`, `C101_loop_false`, `C102_same_partial`, `C102_and_partial`, `C102_or_partial`, `C102_not_partial`, `C102_dirs_partial`, `C102_exclude_partial`, `C103_files_partial`, `C103_table`, `C103_broken_false`, `C103_hidden_false`, `C103_order_false`, `C103_twice_false`, `C103_again_false`, `C104_unused`, `C104_only`, `C104_loading`, `C104_used`, `C104_loading_false`, `C104_reference_false`, `C105_content`, `C105_unreadable`, `C105_shake_false`, `C106_complete`, `C106_lines`, `C106_word_partial`, `C106_once`, `C106_narrow_false`, `C106_name_false`, `C106_hyphen_false`, `C107_ff`, `C107_complete`, `C107_argument_partial`, `C107_named`, `C107_remainder_false`, `C107_narrow_false`, `C108_json_false`, `C108_archives_partial`, `C108_xattr_false`, `C109_table`, `C109_unknown`, `C109_remote_partial`, `C109_local`, `C109_remote_false`, `C109_file_partial`, `C109_mount_false`, `C109_error_false`, `C110_long_false`, `C111_attributes_partial`, `C111_plugin_partial`, `C111_types_partial`, `C111_plugins_partial`, `C111_shown`, `C111_doc_false`, `C111_quote_false`, `C111_backslash_false`, `C112_text`, `C112_option`, `C112_included`, `C113_false`, `C113_number_false`, `C113_times_partial`, `C114_start`, `C114_end`, `C114_described`, `C114_one_false`, `C115_status_false`, `C115_kinds`, `C115_immediate_partial`, `C115_immediate_false`, `C116_part_partial`, `C116_avoided_partial`, `C117_exact_partial`, `C117_found_partial`, `C117_time_partial`, `C117_mode_false`, `C117_duration_false`, `C117_list_false`, `C117_name_false`, `C118_needed`, `C118_once`, `C118_order`, `C118_exclude`, `C118_slow_partial`, `C118_brackets_false`, `C118_alternatives_false`, `C119_arguments`, `C119_installed_partial`, `C119_safe`, `C119_taken`, `C119_false`, `C120_stripped_false`, `C121_current_partial`, `C121_stale`, `C121_second_false`, `C121_unreadable_false`, `C121_link_false`, `C122_path_partial`, `C122_own`, `C122_string_partial`, `C122_false`, `C122_directory_false`, `C123_files`, `C123_recent`, `C123_links`, `C123_executable`, `C123_rwx_partial`, `C123_exec_partial`, `C123_video`, `C123_txt`, `C123_executable_false`, `C123_newer_false`, `C123_substring_false`, `C124_order_partial`, `C124_last`, `C124_collected`, `C124_false`, `C125_plan`, `C125_results_partial`, `C125_false`, `C126_reads`, `C126_exact`, `C126_ff`, `C126_spells`, `C126_unknown`, `C126_more`, `C127_setting`, `C127_plain`, `C127_coloured_partial`, `C127_json`, `C128_sorted_partial`, `C128_limited_partial`, `C128_count_partial`, `C128_json_partial`, `C129_warned_partial`, `C129_hide_partial`, `C129_hidden_partial`, `C129_no_effect_partial`, `C129_nothing_partial`, `C129_false`, `C130_complete_partial`, `C130_batch`, `C130_bounded`, `C130_no_deadlock`, `C130_find_false`, `C130_find_partial`, `C131_hang`, `C131_all_or_none`, `C131_progress`, `C131_no_deadlock`, `C131_assertions`, `C132_sound`, `C132_commands`, `C132_ends`, `C132_queued_false`, `C133_typed`, `C133_present`, `C133_mount`, `C134_check`, `C134_plugins`, `C134_medium_partial`, `C134_medium_false`, `C134_search`, `C134_sorted`, `C135_first`, `C135_running_false`, `C135_sorted_partial`, `C135_lost_false`, `C135_chunk_false`, `C135_closed_false`, `C136_complete_partial`, `C136_false`, `C137_attributes`, `C137_tests`, `C137_same_partial`, `C137_paths_partial`, `C137_hidden_false`, `C137_ignore_false`, `C138_fewer_partial`, `C138_reason_partial`, `C138_ignore_partial`
