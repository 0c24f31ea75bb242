# Design of the formal model of eProsima/dev-utils

The subject is the source in `/repo` (read as text, never built).  The model is
a set of small total Lean 4 functions and transition systems under
`lean/Verif/Model`, each definition citing the lines it follows.  Property
statements are in `lean/Verif/Props` (one file per area), the specifications
they use are in `lean/Verif/Spec` (or at the head of the property file), helper
lemmas in `lean/Verif/Lemmas`.

## Conventions

* `std::string` is `List Char` where only equality of characters matters
  (find, split, mangling); `List (BitVec 8)` where byte values matter (base64).
  `size_t` arithmetic is unbounded `Nat` except where the code relies on or
  suffers from wrap-around, where it is `BitVec`/`UInt32`/mod 2^k arithmetic and
  the comment says so.
* Undefined behaviour is an explicit outcome (`Res.ub`), a C++ exception is
  `Res.throw`, non-termination is either an explicit `Res.diverge` justified by
  a separate lemma about the loop body or absence of a big-step result.
* Concurrent objects are transition systems over `List` of thread program
  counters (any number of threads), one transition per critical section or
  per instruction that touches shared state outside a lock.  Spurious wake-ups
  and timeouts are always enabled transitions (but see C149-C152).  Theorems range over all
  reachable states.  Memory is sequentially consistent; mutex-protected
  accesses are data-race free so this is the C++ semantics for them, and the
  unprotected atomics use the default `seq_cst` order.
* "No lost wake-up" is stated over reachable states (no thread sleeps that should
  be awake and has nobody to wake it); "eventually" and "returns" are stated over
  infinite executions that are strongly fair to every thread
  (`System.Execution.Fair` in `Verif/Model/Threads.lean`).  That the real
  scheduler and mutexes are fair in this sense, that `notify` reaches the sleeping
  threads and that system calls return is assumed.
* When the code does not satisfy a property, the negation is proved with a
  concrete witness and the strongest conditional theorem we have is named
  `..._partial`.

## Trusted base

* Lean 4.33.0 kernel, and the axioms `propext`, `Classical.choice`,
  `Quot.sound` (each theorem depends on a subset of them; the section
  "Axioms" below lists what each uses).
* The hand translation from C++/Python to the model; the citations are there to
  review it.
* Behaviour of libraries that are not modelled: `std::regex`, `std::mt19937`,
  iostream formatting of integers, `fnmatch`, the CMake language (variables, cache, lists and conditions as its
  manual describes them under `cmake_minimum_required(VERSION 3.5)`, `file(GLOB_RECURSE)`), `ctest`, the filters of GoogleTest, OS file access, Fast DDS,
  what `inotify` delivers (any sequence of events is allowed; for C182 and C183, what inotify(7) says of writes, links, renames and the queue), the scheduler, the clocks, `timegm`/`gmtime` (modelled as the
  proleptic Gregorian calendar), `get_time` as in libstdc++ 13, IEEE-754 arithmetic
  with round-to-nearest-even and a correctly rounding `stod`.

## Which code is modelled

Every model definition cites its lines.  By directory:

| Source | Modelled in `lean/Verif/Model` | Not modelled |
|--------|-------------------------------|--------------|
| `math/math_extension`, `math/random` | whole; generator as an unknown stream | the numbers `mt19937` gives; `random_device` being thread safe is taken from the comment in the header |
| `utils` (strings, bytes, base64, numbers, maps and sets of pointers) | whole, except the next column | `copy_to_void_ptr`, `enable_ansi_colors` |
| `Formatter`, `ReturnCode`, `ros2_mangling`, `qos_utils`, `file_utils` | logic on texts and tables | file permissions and I/O errors other than "cannot open"; `DDS` types |
| `exception` | whole (`Model/Exception.lean`) | allocation failure; copies that the compiler leaves out |
| `types` (`Fuzzy`, `Tree`, `Builder`, singletons), `enum`, `macros` | values and operations; macro expansion as lists | template overload resolution; `cast.hpp` |
| `memory` (`Heritable`, `owner_ptr`) | reference graph; owner/lessee/guard as threads | allocation failure; memory order weaker than seq_cst |
| `pool`, `queue`, `collection/database` | whole | allocation failure; hash collisions |
| `wait` (C++), `py_utils/wait` | whole, any number of threads, time-outs as free choices; beside a monotonic and a system clock for durations (`Model/Timed.lean`) | resolution and range of clocks, the year 2262 in which untimed C++ waits end; interrupts of the Python main thread |
| `event` (`EventHandler`, `MultipleEventHandler`, `PeriodicEventHandler`, `SignalManager`, `SignalEventHandler`, `StdinEventHandler`, `FileWatcherHandler` with the Linux and Windows parts of `filewatch`, log handlers), `history`, `user_interface` | whole, except the next column | on Windows the calls of the system that fail and everything that is outside the two threads of `FileWatch` and `destroy`, scrolling and resizing of the terminal, throwing callbacks |
| `thread_pool` | whole, with tasks that throw or use the pool, `enable` and `disable` by any thread | tasks that never end; what happens after a race on `threads_` |
| `time` | conversions, `Timer` arithmetic, `PausableTimer` | clocks; tables of real time zones (a zone is an arbitrary function) |
| `logging`, `testing/LogChecker` | filters, configuration, counting, macros | Fast DDS log thread beyond "delivers in order, once"; console colours |
| `dev_utils` (`enumeration_builder.py`) | parsing, substitution, header functions | `argparse`, writing the file |
| `py_utils/time`, `py_utils/debugging`, `py_utils/logging` | whole, on top of `logging.Logger` of CPython 3.11 | filling in formats, names of levels, threads |
| `cmake_utils/cmake/project`, `cpp_common/find_external.cmake` | `in_source_build_prevention` (`Model/CMakeSource.lean`), `read_version`, `configure_cmake_options`, `load_project_settings`, `set_installation_paths`, `find_external_projects`, on top of variables, cache, lists and `if` of CMake (`Model/CMake.lean`) | messages; variables left behind by the macros; `[`, `]` and `\` in values |
| `cmake_utils/templates/cpp/library`, `read_commit_hash.cmake` | the three headers as macros of a translation unit and the names of libraries with MSVC (`Model/DllHeader.lean`); the version and commit in `config.h` (`Model/CMakeConfig.lean`) | expansion of macros in macros; names of `.pdb` files |
| `cmake_utils/loader` | the guards, `cmake_utils_FOUND`, the module path and the template paths (`Model/Loader.lean`); not the functions of the included files and not the glob that finds them |
| `cmake_utils/cmake/packaging`, version files | which versions `find_package` accepts; the files installed for a shared library on Linux and the components of packages (`Model/CMakePackage.lean`); archives, symbols of MSVC and the texts of packages are not modelled |
| `cmake_utils/cmake/cpp_common` (the rest) | `configure_project_cpp` with build type, version of C++, `BUILD_SHARED_LIBS`, coverage, sanitizers, flags (`Model/CMakeCpp.lean`) | warnings; include directories of third parties |
| `cmake_utils/cmake/test`, `compilation/compile_library.cmake`, `compile_tool.cmake`, `library-Config.cmake.in` | labels of tests, entries and filters of tests, lists of sources (`Model/CMakeTest.lean`); targets of tools and libraries, installed headers, package configuration, `PATH` of tests on Windows (`Model/CMakeInstall.lean`) | MSVC symbols; version of the library; extra include directories; `gtest.cmake` |
| `compile_test.cmake`, `compile_documentation.cmake` | which macros act and their targets (`Model/CMakeBuild.lean`) | Sphinx itself; the targets of tests; `FindSphinx.cmake` |
| `gtest.cmake:48-76`, `FindGMock.cmake` | `Model/CMakeGMock.lean`; the file system is any function from directories and names to files | `FindGTest.cmake` and `FindThreads.cmake` of CMake, `file(TO_CMAKE_PATH)`; `check_gtest`, the same macro with other names |
| all classes with mutexes | which members each call accesses under which mutexes (`Model/Race.lean`) | values, branches, the memory model (a race is defined on interleavings, which is enough: a program without races in this sense has none in the C++ memory model), `std::random_device`, tasks of a pool (C60), terminal settings (C168), which all handlers share |
| `thirdparty/optionparser` | `Stats`, `Parser`, `Option` with its links, `Arg::None`, `Arg::Optional`; `printUsage` as the bytes it writes (`Model/Usage.lean`); the five writers with short writes (`Model/UsageWriter.lean`) | buffers of `FILE` and of streams; `int` overflow of percentages above 200000; the protection against 2^31-1 options; `argc` larger than the vector; check functions as pure functions of name and argument |

## Plan per property

| Id | Model | How proved |
|----|-------|------------|
| C01 | 32-bit `BitVec` of the two tests | bit-level lemma: n and n-1 share no bit iff power of two; induction on width |
| C02 | all branches incl. halving loop with fuel = its own variant | case split; loop invariant dividend/divisor unchanged when both even |
| C03 | recursion on exponent as coded | strong induction, in Z mod 2^32 |
| C04 | 32-bit formula | exact characterisation; negation witness; `_partial` when the doubled product fits |
| C05 | loop with find/substr | refinement to declarative cut; join = source; no piece contains delimiter |
| C06 | fold over delimiters | induction over delimiter list using C05 |
| C07 | loop on empty delimiter | loop state repeats while pieces grow: no fuel suffices (negation); terminates for non-empty (partial) |
| C08 | find + replace | leftmost occurrence specification |
| C09 | iterate C08 | relation to big-step; divergence proved for replacement containing the pattern; termination under length/letter conditions; equality with simultaneous replacement |
| C10 | two calls of C09 | result = filter |
| C11 | per byte map | 256-case table lifted to lists |
| C12 | guard in mod 2^32 arithmetic, padding | decimal digits spec; negations for negative values and n >= 10; partial; division by zero exactly from n = 32 on (`C12_ub_iff`), negative numbers refused for every n up to 9 (`C12_negation_negative`); the guard on every `int` and width (`C12_refused_iff`, `C12_written`) |
| C13,C14 | loops over BitVec 32 with arithmetic shift | invariant of the accumulator's low bits; group decomposition |
| C15 | same loops with UB flag (C++17 rule) | negation witness; partial for short inputs |
| C16 | `Model/Bytes.lean` over exact rationals with IEEE rounding `Model/Double.lean` (53 bits, ties to even); the regular expression as a reader of runs of characters | the reader accepts exactly the grammar (`parse_iff`); exactness below 2^53 (`C16_exact`), error bound (`C16_close`), refusals; the undefined conversions are characterised exactly (`C16_ub_iff`): three narrow bands around 2^64; negations: 2^64 bytes are undefined, 18446.5 PB are refused, 1.005 KB lose a byte; `std::out_of_range` escapes exactly for numbers outside the range of doubles (`C16_out_of_range_iff`), tiny ones among them |
| C17 | the same | unit, shape and accuracy for every count (`C17_text`); negations: 1000 is printed from 999.996 units on, 9010000000000001 is off by more than 1% of the unit; partials below these |
| C101 | both | from C16 and C17; negation: the texts from 18446.02 PB on are refused |
| C102 | generator: Python `replace` and the template as pieces | one `replace` on well-formed pieces replaces exactly one placeholder; nine in sequence by induction; the lines after the comment for every year, file and command, with `%` or not (a placeholder has no line break, so lines are replaced one by one); where the comment ends; negations: `%` in an argument, a comment that ends early |
| C103 | `parse_values`, `main`; C++ reading of the two brace lists as relations | split/strip lemmas; a body has one reading; negation for every list that ends with a separator |
| C104 | `to_string`/`from_string` of the header over the array of names | loop specification; agreement with the model of the macro (C35); the functions are the text of the header for every command line with names without `%` |
| C105 | the index loop | loop = intercalate; read back through C05; negation: texts coincide |
| C106 | fold with `insert`; heap with fresh addresses | induction; with C19 |
| C18 | concat then cut at first NUL | negation, partial without NUL |
| C19 | lists of pointed values | negation (asymmetry), partial without value duplicates; the exact meaning on every two sets (`C19_exact`), from which two general negations |
| C20 | getline loop | unlines/lines laws |
| C21-C27 | literal translation | algebra of prefix/suffix/first-occurrence; negations for C23, C24, C27; for C24 and C27 the exact domain (`C24_roundtrip_iff`, `C27_exact`) and negations for all names outside (`C24_negation_all`, `C27_negation_all`; `C27_negation_order`: of two suffixes in the wrong order the code keeps the first and drops what is between) |
| C28,C29 | structure with Int level | case analysis, op-histories |
| C30 | fold over set calls | argmax-last specification |
| C31 | decision function with abstract matcher | case analysis |
| C32,C33 | rose tree | structural induction; negation for depth |
| C34 | association list built in key order | induction |
| C35 | index lookup, macro counting | induction; arity limit exact |
| C36 | fold over 37 ids | injectivity of the text by decoding |
| C37 | finite enum + switch on Int | case analysis |
| C38 | state machine | invariant over histories |
| C39 | state machine with integer clock | invariant: elapsed = sum of playing intervals |
| C40 | abstract generator (state, next) | refinement to spec indexed by history |
| C41,C42 | index mod 2^64 | negation: exactly two `next` or more on empty (`C41_ub_iff`); invariant once non-empty; refinement to a zipper |
| C43,C44 | key decoder + buffer + cursor | refinement to two-stack editor; EOF stream never leaves the loop |
| C45 | token loop | spec of phrase; negation for every phrase with a leading space (`C45_negation_all`); partial |
| C46 | sequential state machine; `Model/EventNested.lean` for callbacks that use their own handler | history refinement; `C46_nested`: whatever callbacks do and however many threads there are, an event finds a callback exactly when the flag says so, so `DEFAULT_CALLBACK_` is not called |
| C47,C48 | micro-step machine of EventHandler | inductive invariants, quiescence |
| C49 | micro-step machine of signal/handler thread | conservation invariant; negation: lost wake-up state reachable; partial |
| C50 | id counter + map | invariant; wrap-around witness |
| C51-C53 | micro-step machine of WaitHandler, n threads | inductive invariants |
| C54-C56 | micro-step machine of CounterWaitHandler | invariants; C56 negation by reachable stuck state |
| C57,C58 | counter machine + queue machine | invariant counter + in-flight <= queue length; FIFO ghost history |
| C59 | DBQueue functions | refinement to pair of lists |
| C60-C62 | pool over consumer machine | invariants; negations by reachable states |
| C63,C64 | threads, mutex with either policy, map, iterators with their locks (`Model/SafeDatabase`) | the log of effects replays as a sequential history and each call contributes one entry between its start and its return; iterators: freeze and validity without `begin`/copies, negations by reachable states |
| C65,C66,C88,C89 | `Model/Pool.lean`: pool state machine, honest and arbitrary clients | invariants by induction over histories (elements partitioned into free and lent, Nodup; peak of loans); negations: double return (C66), override not called by the destructor (C89) |
| C67-C70,C90 | `Model/OwnerPtr.lean`: owners, lessees, guards and the shared mutex of each datum, any number of threads | invariants over reachable states (deletions without duplicates; the exclusive lock excludes guards); progress of `lock()` and, without guard assignment, of `reset()` in fair executions; negations: `->` and `*` release the lock before the use (C69), guard assignment leaks a lock and self-move of an owner destroys the datum (C70), `operator bool` races with `reset()` (C90) |
| C71,C72,C91,C92 | `Model/PyWaitHandler.lean`: lock, condition, counter of waiting threads, predicates that may raise; any number of threads | invariants (counter = threads inside + raised waits; sleepers are covered by a pending notification); reasons tracked from the start of the call to its return; negations: `blocking_disable` keeps the lock in its loop so that no continuation leaves it (C71, C72), `enable` overtakes the woken threads (C91), a raising predicate is counted for ever (C92); liveness in fair executions where nobody waits when `blocking_disable` gets the lock |
| C73 | `Model/LogSevere.lean`: verbosity, queue and consumers of the log; constructor steps are separate events | induction over events: the count of a handler is the number of severe entries delivered while it is complete; negations: another handler lowers the global verbosity, entries queued before or during construction are counted, 2^32 entries wrap |
| C74 | `Model/MultipleEvent.lean`: parent with any number of children, one call after the other | refinement of `Spec/EventHandler.lean` over all histories; count and calls of the parent from the events of the children |
| C75,C96 | `Model/Periodic.lean`: timer thread and any number of clients, one step per mutex operation; a timeout may happen whenever the timer sleeps | invariants (`C75_stopped`, `C75_started`, `C75_one_thread`, `C96_only_set`, `C96_serial`), histories (`C75_silent`, `C96_spacing`), liveness under strong fairness (`C75_returns`, `C96_ticks`; the latter assumes that the period passes) |
| C95 | the same model with callbacks that call `unset_callback` or `set_callback` | three deadlocks as negations: each a reachable state after which no thread takes a step whatever is called; `C95_change_partial` when no client sets or unsets |
| C107 | one signal manager and any number of signal handlers, each with its two mutexes, as threads; callbacks that leave, change or unset the callback of their own handler | invariant: who owns which mutex, what is registered at each place of set/unset; then induction over the execution after `unset_callback` |
| C108 | the same | liveness: inner mutex, then the manager's mutex by induction on the rest of the round, then the outer mutex; two deadlocks as negations |
| C109 | the same, calls counted | the number of calls still to come is 1 for a registered handler at the start of a round and falls when the call happens |
| C110,C111 | `Model/FileWatcher.lean`: the two threads of a watch, their mutex, condition and pending list, the handler's two mutexes and any number of clients; the kernel's events are free choices | invariant: calls ++ batch ++ pending ++ unread = reported modifications (`C110_calls`); liveness stage by stage: read, parsed, queued, woken, called (`C111_called`); callbacks that set another callback (`Props/FileWatcherChange.lean`): each of their steps is a step with a callback that does not use the handler, or none (`like_step`), so `C110_calls_changing`, `C113_unset_changing` and `C114_watched_changing_partial` follow; not C111, which the deadlock of C112 forbids |
| C112 | the same, also with callbacks that set or unset, paths that vanish | partial: every call returns if the callback does not call the handler, the directory stays and the notification of the destructor is not lost; five negations |
| C113 | the same | invariant and induction over the execution after `unset_callback` |
| C114 | the same | negation and its persistence; partial: set and not destroyed means watched if the path can be watched whenever it is set |
| C115 | `Model/FileWatch.lean`: path splitting, filter and the walk over the raw buffer of `inotify_event` records | round trip of the kernel's encoding, for every list of events |
| C116,C117 | `Model/PyLog.lean`: the logger with level, handlers and the cache of `logging.Logger` | induction over histories: what really decides (`C116_first_decides`, `C117_formats`), partial claims for levels not used before and for histories without `set_format`; negations |
| C118,C119 | `Model/PyDebug.lean`: functions on a world of logger, lines and the rest | equality of results and effects for functions that do not look at the log; negations: `repr` or attribute access that raises, no name, other name |
| C120 | `Model/PyTimer.lean` on the doubles of `Model/Double.lean` | monotonicity and error bound of rounding; exactness between 2^30 and 2^31 seconds; negation when the clock is set back |
| C121 | `Model/Pattern.lean`: `match_pattern` with POSIX `fnmatch` (`FNM_NOESCAPE`) as parser and matcher, C strings | matcher = cutting the text into pieces, by induction over the parts; corollaries for literals and one star; negation for null characters |
| C122 | `Model/TaskId.lean`: atomic counter modulo 2^32, calls in the order of their increments | closed form of the n-th id; partial up to 2^32 calls, negation beyond |
| C123 | `Model/LocalTime.lean`: zone = arbitrary offset function and choice of `mktime`, assumed to return an instant with the given local time if there is one | shown date and time (`C123_print`), reading keeps the text (`C123_same_text`), round trip where the local time is unique (partial); negations for clocks put back and for the second before 1970 |
| C124 | `Model/OptParse.lean`: `workhorse` on the vector with positions, `shift` as swaps; `Lemmas/OptParse.lean` relates it to a structural reading of the list of arguments | words of a command line with their meaning, with and without `single_minus_longopt` and abbreviations; induction over the words |
| C125 | the same, with `parse` | induction over the arguments: used and left are a shuffle of them |
| C126 | the two arrays as a heap of linked cells; out-of-range accesses give no result | invariant: the cells of every index form a ring; `append` and `perform` keep it; any number of calls |
| C127 | the same with `Stats::add` | reading a reordered vector again gives the same if checks never take the next argument or always do; without reordering for all checks; negation: a buffer overflow |
| C128 | `streq`, `streqabbr`, the search of the table | equivalence with "first exact, else the only abbreviation, else unknown"; negation for an empty name |
| C129 | `Model/CMakeProject.lean`: `readVersion`, `configureVersion` | any file with the three lines in any order among others gives the three numbers; kept when all are given; negation: MODULE_VERSION alone is mixed with the numbers of the file, and given numbers alone are overwritten, for all files and values (`C129_negation_all`) |
| C130 | `configureOptions` | case analysis over given or not for each option; negations: LOG_INFO, BUILD_DOCS |
| C131 | the steps of `loadSettings` as a list | a step concerns one variable and depends on earlier ones; fixed point for the second call; negation: MODULE_SUMMARY, for every large name (`C131_negation_all`) |
| C132 | `findExternal` with `if` on the text of the variable | induction over the list; an error exactly for least versions of several elements; negation: every version of three numbers is ignored |
| C133 | `installPaths` | case analysis; negation: two modules in one build |
| C134 | `Model/CMakeTest.lean`: `labelFiles` with the scope of the directory and of its parent, `testLabels` | invariant over the calls: the lists hold the labels and the tests; negations: a missing file skips all later labels of the directory, a second directory replaces the labels |
| C135 | `testEntries`, `entryFilter`, `gtestSelects` (wildcards of GoogleTest) | the filter as an equation of texts; negations: longer suite names, instances without name, entries without tests |
| C136 | `librarySources`, `allLibrarySources`, `globRecurse` | characterisation of the files found, any tree; negations: files directly in `src/cpp` and headers under MSVC |
| C137 | `Model/CMakeCpp.lean`: `configureCpp` with its steps | steps that change only the two texts of flags, each growing by a list; equivalence for failure; negation: compilers of two families |
| C138 | `forceCpp`, the answer of the compiler as a function, kept in the cache | case analysis over the spellings; negation: the empty value of the README |
| C139 | `setBuildType`, `option()` | case analysis; negation: a variable of the project is ignored the first time and used the second time |
| C140 | `updateLength` on bytes, `clz(0)` undefined | UTF-8 decoding inverts `String.utf8EncodeChar`, induction over the text |
| C141 | `rowParts`: `next` until the row ends, with its pointers as suffixes | invariant over cells and lines against `split` |
| C142 | `Wrapper.process`, `Wrapper.flush` with a ring buffer | loop invariant against the relation `Wrapped`, shown to be a function |
| C143 | same, several texts (`feed`) | ring buffer as a queue, induction over the texts |
| C144 | `measure`, `columns` with the threshold loop | invariant of a pass; the threshold falls, so the loop ends |
| C145 | `printTables`, `printTable`, `printRow`, `printPart` | simulation: the cursor `x` is the column of the screen; induction over lines, rows, tables |
| C146 | same | exact text of a row (`RowLines`), specialised to two columns |
| C147 | same | width of each piece; negation: a wide option is not cut |
| C148 | same | counting a character in pieces, cells, rows; negation: ninth column |
| C149 | `Model/Timed.lean`: any concurrent model beside two clocks; the step that begins a wait computes a deadline, timeouts only when the clock shows it | one proof for all programs by phases of a call (out, begun, armed, late, done; `Run.timed_out`), instances for the wait handlers; partial: while nobody sets the system clock forward; negation: early timeout; `…_all_executions` (also C151, C152): every execution of the model without clocks happens beside the clocks, so they forbid nothing but early timeouts |
| C150 | same | liveness: fair scheduling, timeouts that stay possible happen, the system clock passes every date; negation: clock set back by any amount, the wait outlasts it |
| C151 | same, Python: monotonic clock, timeout or `None` | instance of `Run.timed_out`, unconditional |
| C152 | same, `PeriodicEventHandler` with plain callbacks | instance of `Run.timed_out`, with the invariant of the base model |
| C153 | `Model/Screen.lean`: what each key writes, and a VT100 screen (unbounded above and below, deferred wrap) that interprets it | screens after clearing, writing and moving in closed form (`draw_clear`, `draw_text`); invariant over any sequence of keys; partial with `Careful` keys; negations: cursor behind a full row, moves from and to there, recall with the cursor in an upper row, bytes counted as columns |
| C154 | same | from `Shown`; partial with the cursor in the last row; negation |
| C76,C94 | `Model/Heritable.lean`: heap of objects with class and lifetime, handles with static class; histories of make, null, copy, move, assign, write, drop | refinement of families of handles (`C76_refines`), no dangling and no leak (`C76_lifetime`); C94: classes are kept under conversions to a base, negation for the conversions to a derived class that also compile |
| C93 | `Model/LogDestroy.lean`: micro-steps of the destructor and of consumers, any number of threads | negation: `entries_consumed_` goes before the connection; partial: what outlives the connection is never used after it is destroyed, and nothing after the destructor; everything exists until a destructor begins (`C93_in_use_partial`) |
| C77 | `Model/TimeUtils.lean`: `timegm`, `gmtime`, `put_time`, `get_time` (libstdc++ 13) and 64-bit nanoseconds; `Spec/Calendar.lean` counts days one by one with the rules of the calendar | closed formula = count (`C77_date`), order (`C77_monotone`), text (`C77_print`), reading back in every complete format (`C77_text_partial`); negations: overflow from 2262-04-11 on, and the second before 1970, whose value is the error value of `timegm` |
| C97 | the same; `Props/TimeCase.lean` for the case of letters | exact outcome for six numbers followed by anything (`C97_fields`); negations: impossible day, year alone, trailing text |
| C98 | the same, clock as parameter | from C77 |
| C99 | three platforms | case split |
| C100 | the same as C77 | from 1970 on; negation for every earlier timestamp with a fraction of a second (`C100_negation_all`; truncation towards zero) |
| C78 | line computation of the editor, width as parameter | negation at width 0; partial for positive width |
| C79 | EventHandler machine | negation by reachable state; partial without resets |
| C80 | signal manager machine | invariant; liveness under strong fairness |
| C81,C82 | pool machine, enable/disable restricted to thread 0 (`controlled`) | invariant relating `threads_` and the threads in their routine |
| C83 | counter + queue machine | liveness: no pop for ever contradicts the no-lost-wake-up invariant |
| C84 | pool machine; its executions are fair executions of its queue | emit → stored → popped (C83 argument) → finished |
| C155 | same, each execution ends by returning, with `DisabledException` or with something else | the C84 argument with one thread that never ends, found by counting threads that have ended; partial: fewer such exceptions than threads; negations: a pool of one thread, any other exception |
| C156 | `Model/TSafeRandom`: the calls as a program of any number of threads over the two generators and their mutexes, reading and writing the state of a generator being steps of their own | local invariant of each place; the record of completed calls replays as a history of C40's model; each call is recorded once, by its last step |
| C157 | same | leads-to: the holder of a mutex completes its call, so the mutex becomes free, so a waiting thread takes it |
| C158 | `Model/SlotThreadPoolTasks`: the same pool; a call of a task is executed by a second thread of control during which the thread of the pool does nothing | each execution is one of the pool alone; it is fair there, since calls of tasks return (the holder of `slots_mutex_` is never within a task) and each task makes finitely many, so C155 and C85 apply; partial: `emit` and `slot`; negations: `disable`, `wait_all_consumed` in a pool of one thread |
| C159 | models of C54 to C58 and C60 | leads-to by contradiction: a wait that never ends sleeps again and again, so its timeout occurs, after which it leaves at its next step; for the pool, on the execution of its queue |
| C160 | `Model/SlotThreadPoolShared`: the same pool, all threads calling everything; `Race` and `Aborts` are properties of the state before two accesses to `threads_`, or before `clear` | partial, `enable` and `disable` not overlapping (several of the same kind may): invariant that at most one thread is past the exchange of `enabled_`, with what `threads_` contains at each place; negations by traces |
| C161 | `Model/CounterDestroy`: the counter or queue of C54 to C58 with a thread that destroys it: members of derived classes first, then `blocking_disable` in the base class; `Hit` is the state before a use of a destroyed member | partial, the others idle or waiting for elements of which there are none: invariant of what may become of each of them; the destructor ends, by C56's liveness on the execution of the object alone; negations by traces and a cycle |
| C162 | `Model/FileAccess`: modes as 32-bit vectors, `access` of POSIX over what the process may do with the file | bitwise laws for all modes; Windows: the bit of execution is left out |
| C163 | `Model/LogMacros`: each macro as a function of the build, the verbosity and what its argument does when evaluated | case analysis over all builds; negation: the kind of `logDevError` |
| C164 | `Model/HeritableOwn.lean`: control blocks of `std::shared_ptr` under the Heritables, with the class as which each deletes its object | invariant over all histories: a block is live while some Heritable shares it, and the deletions of an object are those of its dead block; partial: each pointer given to one constructor, classes with virtual destructors; negations: `Heritable<Base>(new Derived)`, one pointer given twice |
| C165 | `Model/Stdin.lean`: reading thread and clients of `StdinEventHandler`, with both mutexes of `EventHandler`, the counter of lines asked for, whole lines as input | invariants over all executions (order, count, one thread, quiet after `unset_callback`); partial: every line read is given to the callback if nobody unsets it; negation: a line read after `unset_callback` began is dropped |
| C166 | as C165 | liveness under fairness, by following the reading thread line by line; callbacks may ask for lines |
| C167 | as C165 | liveness; partial: a line comes whenever the thread waits for one, callbacks neither set nor unset; negations: `unset_callback` without input, `unset_callback` and `set_callback` in the callback |
| C168 | `Model/Terminal.lean`: mode of the terminal and the static `oldt` | by induction over starts and ends of handlers: raw while somebody reads; restored if no two handlers have read at the same time; negation for every history in which two have |
| C169 | as C165, with the queue of `CommandReader` as callback | order and conservation of lines by invariants; one line asked for per call (`asked_eq`), hence nothing read ahead; liveness from C166 |
| C170 | `Model/StdinSource.lean` over `Model/Editor.lean` | partial: source is the standard input and whole lines, for all texts; negations: any other source is ignored, `read_lines = false` has no effect |
| C171 | `Model/EventHandler.lean`; nobody starts a call after the destruction (`unset_callback`) started; `Props/EventHandlerDestroy.lean` | partial, callback set, others idle or in an event with the mutex locked: nobody is within a call when the handler is gone; with sleeping waiters as well: nobody sleeps on or locks what is gone; the destructor ends under fairness. Negations: a woken waiter reads the number of events afterwards, a waiter that has not locked the mutex yet does so afterwards, an event of a handler without callback is not waited for |
| C172 | `Model/Reentrant.lean`: one thread, a stack of callbacks in progress and the life of the function objects; `Props/Reentrant.lean` | partial: no use of a destroyed function object if callbacks only use their variables and raise events, or use their variables only before they set, unset or raise; for all callbacks: an event calls the callback set last, none after an unset, and returned calls are counted. Negations: a callback that uses its variables after it has set another callback, or unset itself |
| C173 | `Model/MultipleShared.lean`: outer handler with any number of handlers inside, sources that raise events in any number of threads, clients, destructor; both mutexes of the outer handler and the inner mutex of each handler inside; that a handler stops its source and waits for it in `callback_unset_nts_` is assumed here (own models of each), so log handlers (C93) are excluded | ownership and counting invariants, an invariant of the destruction (handlers destroyed so far are stopped and have no event), induction over the handlers and a measure for the liveness; callers of the outer handler itself during its destruction are C171's subject |
| C174 | `Model/CMakeInstall.lean`: files of the include directory, files installed, names found in the build and in the installation | partial (default settings): the names found are characterised, and all are known in the build; place of each header for all settings; negations: two names in `MODULE_HEADERS_PATH`, another include directory, further names of the build |
| C175 | `Model/CMakeInstall.lean`: targets as a map, `compileTool`, `compileLibrary` | partial: the whole target, other targets unchanged; negations: project with another name, output name of a library, library and tool in one module |
| C176 | `Model/CMakeInstall.lean`: graph of targets, recursion with the limit of CMake | partial: directories are exactly those of the libraries reachable by `LINK_LIBRARIES` (`C176_exact`, by induction over the depth), termination by a rank, and exactly for well-founded links (`C176_ends_iff`); negations for all graphs: interface and imported libraries, cycles at every depth, entries without list of tests |
| C177 | `Model/CMakeInstall.lean`: paths of the installed files, `find_package` over packages and targets found so far | partial: found exactly when dependencies are targets already or belong to Fast DDS and Fast CDR; negations: project with another name (never found), other dependencies |
| C178 | `Model/TimeShared.lean`: the object of `gmtime` and `localtime` shared by threads, written by the library function and read in a later step of the caller, both as a whole; the history of those that wrote it | partial, with a mutex of the user's: every result is that of a single thread, by an invariant; without it: a result is made of the time of some call of the execution (`C178_some_partial`); negation for every two times, with the data race on the way |
| C179 | `Model/UsageWriter.lean`: the five writers, each piece of text with the number of bytes the destination takes | by induction over the pieces, for every sequence of short writes: functions get every piece, a stream gets a beginning of the text and stays good exactly when it is whole, `ferror` exactly when a byte is missing; with `write` partial (whole exactly when no write is short) and negation: the caller cannot tell |
| C180 | `Model/EventNested.lean`: the program of `EventHandler` with a stack of calls per thread and recursive mutexes; callbacks are lists of calls that depend on the argument | invariant: `internal_callback_mutex_` is locked as often as the stack of its owner says; negations: `wait_for_event` in a callback never returns (for every state and every continuation), callbacks that set or unset deadlock with `unset_callback` of another thread (for every such callback); partial, for callbacks that raise events and use the count: every call of a client but `wait_for_event` returns, by induction over the nesting, a count of the threads in `wait` and fairness; `wait_for_event` returns once its condition holds, whatever callbacks do (no lost wake-up) |
| C181 | the programs of `WaitHandler` and of counters and queues (C51 to C58) | along every execution from the call to its return: `enabled_` keeps its value until it is cleared, stays false until the loop ends, and the loop ends when `threads_waiting_` is 0, which counts the threads asleep or awake again; that the calls return is C53 and C56 |
| C182 | `Model/FileSave.lean`: directories with files, hard and symbolic links, the operations on them and the events that the mask of the watch lets through | for every operation: reported once exactly if it writes under the watched name, opened by it or by a link; along every sequence of operations, a file with one name that is not replaced cannot change unreported; negations, for all files: rename, links, other names |
| C183 | `Model/FileBurst.lean`: the queue of `inotify` with its bound, merging of equal events and `IN_Q_OVERFLOW` | what is noted is a subsequence of what occurred; a modification for which there is room stays in the queue until it is read; negation for every bound and file: two other files written to by turns |
| C184 | `Model/InitSingleton.lean`: the static shared pointer, the objects built and the shared pointers given out | by induction over histories; negation: `initialize` again destroys the object, for every history in which nobody shares it |
| C185 | `Model/Mangling.lean` | characterization of `remove_prefix` for all names and prefixes; negation: every result begins with the slash |
| C186 | `Model/PoolThrow.lean`: the pool of `Model/Pool.lean` with constructions and resets that may throw | invariant over histories (elements partitioned into free and lent); `return_loan` refuses exactly when as many elements are on loan as were built in loans that failed; partial: nothing left over, in particular batches of 1; negations for every batch size above 1 |
| C187 | `Model/ConsumerThrow.lean`: pieces of `produce` and `consume` of any number of threads in any order, copies may throw | invariant: values added = values returned, then those in the queue; their number is the counter, the calls under way and the failed copies; negation for every history with a failed copy and every continuation; partial without failed copies |
| C188 | `Model/OwnerThrow.lean`: one datum, calls of any number of threads, a deleter that may throw | invariant (deleter called at most once); negation for every history with a throwing deleter and every continuation; partial for deleters that do not throw |
| C189 | `Model/DllHeader.lean`: `library_dll.h` and `eProsima_auto_link.h` as functions on the macros of a translation unit; names of files and definitions of `compile_library` for MSVC | decision logic, for every state of all macros the header does not look at; off Windows nothing is declared or linked (C189_elsewhere), `EPROSIMA_ALL_DYN_LINK` selects the shared library (C189_all_dyn); negations for the configurations RelWithDebInfo and MinSizeRel, for a second library, for names with a dash and for `USERDllExport` |
| C190 | `Model/CMakeConfig.lean`: `read_commit_hash`, `project(… VERSION …)` and `config.h.in` on top of `Model/CMakeProject.lean` | exact content of the header for every `VERSION` file that gives three numbers; negations for a module inside another, for versions set by the project and for numbers with zeros in front |
| C191 | `Model/CMakePackage.lean`: `accepts`, the version file with `SameMajorVersion` (`write_basic_package_version_file` as CMake documents it, without ranges, `EXACT` and the size of pointers) | exact condition for all versions with any number of numbers (C191_exact, C191_any), "older" stated by the first difference; at least the version asked for and the same first number suffices (C191_found_partial); negation for every greater first number |
| C192 | `Model/CMakePackage.lean`: the files `compile_library` and `eprosima_packaging` install for a shared library on Linux, with their components | disjointness for all pairs of modules with the usual directories and no resources (C192_apart_partial), headers and CMake files are in the package (C192_packaged_partial); negations for resources, for licences on Windows and for the components of a package |
| C193 | `Model/Loader.lean`: `find_package(cmake_utils)` on a stack of scopes with the variables that `cmakeonly-Config.cmake.in` and `load_all.cmake` use | invariant over all sequences of commands (no error, templates set, scopes restored); partial: found and the modules exactly once, if the project only appends to `CMAKE_MODULE_PATH` and leaves `cmake_utils_FOUND` alone; negations for every assignment of either |
| C194 | `Model/FileWatchWin.lean`: the `_WIN32` branches of `FileWatch.hpp` on bytes and 16-bit units (no surrogates); `ReadDirectoryChangesW` as its manual says | round trip of the buffer for all entries and paddings, `convert` is injective and makes no separators; partial: ASCII names in one directory, buffers that fit; negations for directories below, other letters, every one-byte code page, renames, full buffers and changes that leave the text |
| C195 | `Model/FileStopWin.lean`: both threads of `FileWatch` on Windows and its destructor as a transition system with spurious wake-ups, changes as a number | every change is reported in every fair execution (`C195_reported`), no call too many (`C195_calls`), none left when the threads rest (`C195_delivered`), none after the destructor (`C195_quiet`); the destructor returns: partial, without the interleaving of the lost wake-up (measure for each of the three phases, `Lemmas/Progress.lean`); negations for that interleaving, for a lost directory and for changes after it |
| C196 | `Model/Exception.lean`: exceptions as class and message, constructed from pointers, strings and `Formatter`s, copied, sliced, assigned, destroyed in any order; `what()` ends at the first NUL | induction over the operations against the messages given (partial: without NUL and null pointers); negations for both; the first handler that can (`C196_caught`) |
| C197 | `Model/CMakeBuild.lean`: which macros act, by the options after `configure_cmake_options`; targets, `enable_testing` and directories; `CPACK_COMPONENTS_ALL` at `include(CPack)` | from C130 with the words that say yes or no (partial); `ctest` in the directory of a module (`C197_tests`); several modules and the top directory (partial); negations: other words, documentation twice, top directory without `enable_testing`, no package has the documentation |
| C198 | `Model/CMakeGMock.lean`: `check_gmock`, the searches of `FindGMock.cmake` with the cache, the words `debug` and `optimized` of `target_link_libraries` | partial: what is linked in each configuration (`C198_linked_partial`, by an append law of the words), found exactly if (`C198_found_iff`), given values kept, searches sound and complete, the same in all directories; negations: a list in `GMOCK_LIBRARY`, only libraries for debugging, environment before `-DGMOCK_ROOT`, architecture appended twice |
| C199 | `Model/Race.lean`: the calls of each class cut into single accesses and mutex operations (branches and loops left open, atomics left out, callbacks call anything), any number of threads; a race is two threads whose next steps access one member, one writing | general theorem (`Lemmas/Race.lean`, `no_race`): calls that read a member under one of its mutexes and write it under all of them, for every place pointers lead to, never race, by an invariant over all executions; a decidable check of that discipline for each class; partial: without `begin` of `SafeDatabase`, `operator bool` of lessees, `enable`/`disable` of pools, `register_event_handler`, handlers under construction; reachable races for each of these |
| C200 | the commands of `Model/Race.lean`, alone and combined (`Model/LockOrder.lean`: any number of signal handlers with their manager and its thread, a `MultipleEventHandler` with any number of handlers, a pool with its queue); a deadlock is a set of threads each waiting for a mutex that one of the set holds. Waits on condition variables may end at any moment and joins are left out (C75, C80, C85, C112, C167); `SafeDatabase` is left to C86 and C87 | general theorem (`Lemmas/LockOrder.lean`, `unstuck`): calls that take mutexes upwards in some order of them, or again if recursive, and call callbacks only while holding none, never deadlock, and some thread in a call can go on; by an invariant over all executions and the ranks along a chain of waiting threads; a decidable check for each class, for all numbers of handlers by simplification. Partial where callbacks run under a mutex: they must not use the object; reachable deadlocks for callbacks that do (C200_negation_…) |
| C201 | `Model/CMakeSource.lean`: the comparison of the two variables, and what `cmake` does around it: which directories it takes for source and build (an argument with a `CMakeCache.txt` is a build directory), the cache written in any case, the build system only without error; directories with any number of names | case analysis for every call and state; induction over the calls for the negation. Partial: links and modules with a build directory of their own; reachable negations for each, and for calls after a refused one |
| C85 | pool machine | liveness: status mutex is freed, every worker ends, induction over the join list |
| C86,C87 | the same program | deadlock state for the writer-preferring mutex (negation); liveness from fairness: the mutex is released again and again; draining by a decreasing count of reader steps |

Nothing is classified "cannot be expressed" so far.  Not modelled at all:
`copy_to_void_ptr`, `demangle` of C++ symbols, YAML/Windows code paths, and the
library internals listed in the trusted base.

## Where the code does not do what the property says

Each item is a theorem unless it is marked *(by reading)*; those are remarks on
the source that no theorem covers.

Strings, numbers, bytes
* `arithmetic_progression_sum` returns 0 for a sum of 2^31 (C04_negation).
* `split_string` with an empty delimiter and `replace_all` with an empty
  pattern, or a replacement containing it, never return (C07, C09 negations);
  `replace_all` re-scans its own output (C09_negation_rescan).
* `number_trailing_zeros_format` divides by zero at 32 digits, refuses numbers
  that fit, pads before the sign (C12_negation, C12_ub_iff, C12_negation_negative).
* base64: shifts that overflow `int`, undefined before C++20, for some inputs of four
  or more bytes (C15_negation, C15_negation_decode; exactly which: C15_encode_exact,
  C15_decode_exact).
* `to_bytes`: undefined conversion in three bands around 2^64
  (C16_ub_iff, C16_negation_ub); refuses 18446.5PB, which fits
  (C16_negation_rejected); 1.005KB is 1004 bytes (C16_negation_fraction);
  positive
  numbers below the normal range of `double` and too large ones throw `std::out_of_range`, before the unit is looked at
  (C16_out_of_range_iff, C16_negation_tiny).
* `from_bytes` prints 1000 of a unit from 999.996 units on (C17_negation_carry), is off by more
  than 1% of the unit (C17_negation_percent), and its texts from 18446.02PB on are
  refused by `to_bytes` (C101_negation).
* `match_pattern` ignores everything after a NUL (C121_negation).
* `Formatter` loses everything after a NUL (C18_negation); `are_set_of_ptr_equal`
  is not symmetric (C19_negation).

* `container_to_stream` gives different containers the same text (C105_negation).
* `enumeration_builder.py` replaces placeholders that come from its arguments
  (C102_negation), lets an argument such as `--output=*/x.hpp` or a file named
  `%end_namespace%.hpp` end the comment of the header (C102_negation_comment) and, for a list with a separator at the end, writes a name
  without enumerator (C103_negation_trailing); its header lacks
  `string_to_enumeration` and `all_values` of the macro and throws
  `std::invalid_argument` instead of `InitializationException` *(by reading)*.

ROS 2 mangling
* `remove_prefix` keeps the slash that its documentation says it removes (C185_negation).
* `demangle_if_ros_type` reads "" out of range (C23_negation); services in a namespace are mangled to ""
  (C24_negation); "_Request_" in the middle is accepted (C27_negation).

Data types
* A second `initialize` of an `InitializableSingleton` destroys the object that pointers refer to
  (C184_negation_again).
* `Fuzzy ==` is not what its documentation says (C28_negation); `Tree::depth` is
  always 0 (C32_negation); `Builder::refactor_values` for maps is ill-typed
  *(by reading, Builder lines 44-49)*.
* `Heritable` converts to derived classes without a check (C94_negation); a
  `Heritable<Base>` made from a pointer to a `Derived` converts it before the
  `std::shared_ptr` sees it, and deletes it as a `Base` even if the destructor of that is
  not virtual (C164_negation_class); two made from one raw pointer delete it twice
  (C164_negation_twice); using a moved-from one dereferences null (`read` and `write` of
  `Model/Heritable.lean` are undefined there).

Command line
* history: second "down" on an empty history reads out of range (C41, C43
  negations); recall divides by a width of 0 (C78_negation); end of input in the
  middle of a line loops for ever (C44_negation); a quoted phrase that starts with a
  space is misread (C45_negation, C45_negation_all).

Time
* in local time, of two instants with the same local time (clocks put back) at most one is
  read back (C123_negation_overlap); the second before 1970 is refused
  (C123_negation_refused).
* dates beyond 1677-09-21 .. 2262-04-11 overflow (C77_negation_range); the second
  before 1970 is refused (C77_negation_text); "2023-02-31" is read as March 3, "2023"
  as 2022-12-31, trailing text is ignored (C97 negations); fractions before 1970 are
  shown as the next second (C100_negation_all); `gmtime` and `localtime` give all
  threads one object, so that a thread may get the text of the time of another (C178_negation; right with a mutex of the
  user's, C178_guarded_partial).
* `printUsage(write, fd, usage)` does not read what `write` returns: a short write leaves a hole in the text and
  nobody can tell (C179_negation).

Waiting and events
* `unset_callback` and `blocking_disable` return while threads still use the
  object (C48_negation, C53_negation); `wait_for_event` woken by its
  event returns false if the count is reset at that moment (C79_negation).
* A callback that calls `wait_for_event` of its own handler for more events than have been counted never returns and
  blocks the handler for ever (C180_negation_wait); one that sets or unsets takes the two mutexes in the opposite order of
  `unset_callback` in another thread: deadlock (C180_negation_order).
* A signal can be lost until the next one (C49_negation); signal ids wrap and
  replace callbacks (C50_wrap); `unregister_callback` from inside a callback
  deadlocks (C108_negation_unset).
* `wait_threshold_reached` is woken neither by `disable` nor by a rising counter
  (C56_negation_disable, C56_negation_rising); `consume` on a new consumer
  with an initial value other than 0 throws (C58_negation_all).
* Destructors of `DBQueueWaitHandler` and `CounterWaitHandler` destroy their members
  before the base class waits for the threads: a consumer that is taking an element takes it
  from a destroyed queue (C161_negation_granted) and is not waited for (C161_negation_gone), one that is woken for an
  element finds its members gone (C161_negation_element), and with a thread in `wait_all_consumed` the destructor never
  ends (C161_negation_hangs).
* `PeriodicEventHandler`: three deadlocks of callbacks that set or unset (C95).
* `SignalEventHandler`: a callback that unsets itself waits for a mutex its own thread
  holds (C108_negation_unset); one that sets itself can deadlock with a client that
  unsets (C108_negation_change).
* Log handlers: verbosity of another handler, entries queued earlier or during
  construction, 2^32 wrap (C73 negations); `entries_consumed_` is destroyed before the
  connection (C93_negation); `logDevError`, documented as of level Info, queues a
  warning (C163_negation).
* `FileWatcherHandler`: `FileWatcherHandler.cpp:77-81` constructs an exception without
  throwing it, so a handler can be set and deaf (C114_negation_swallowed), and it stays so
  (C114_deaf); `~FileWatch` notifies without the mutex, so stopping can wait for ever
  (C112_negation_lost), and does so once the watched directory is gone
  (C112_negation_deleted); a callback that
  unsets itself terminates the process, and callbacks that set or unset deadlock with
  clients (C112_negation_self_unset, _unset_in_callback, _set_in_callback).
  The mask lacks `IN_MOVED_TO`, so a file replaced by a rename is not reported
  (C182_negation_rename), and the watch is for a name in a directory, so neither writes to
  the target of a link (C182_negation_link) nor by another name (C182_negation_hard_link)
  are.  All changes of the directory share one queue and `IN_Q_OVERFLOW` is not looked at, so
  changes of other files can hide those of the file (C183_negation_any).
  `FileWatch.hpp:516-549` leaks the inotify descriptor when it throws *(by reading)*.
* Python logger: `set_log_level` and `activate_debug` have no effect on levels already used,
  since the logger is made without `getLogger` and its cache is not emptied (C116 negations); each
  `set_format` adds a handler, so messages are repeated in all formats (C117_negation).
* Python debugging helpers: they raise when `repr` or an attribute raises, even with debug off; the
  decorator loses the name (C118, C119 negations); the text of `debug_object_introspection` lacks the ">"
  after the class name (debug_utils.py:26) *(by reading)*.
* Python `Timer` uses the time of the day (C120_negation).
* Python: `blocking_disable` spins with the lock held (C71, C72 negations),
  `disable` then `enable` loses waiters (C91_negation), a raising predicate is counted for
  ever (C92_negation).

CMake
* `find_external_projects` writes `if(${X_MINIMUM_VERSION})`: a version such as `3.0.0` is not a number for CMake, so it
  is taken for the name of a variable and no version is asked for (C132_negation).
* `LOG_INFO`: `set(LOG_INFO CACHE BOOL OFF)` stores the empty text (OFF is taken for the description); a variable
  `LOG_INFO` with value ON is removed by it, a second call in a Debug build switches the option off, and a build
  directory first configured for Release never switches it on (C130_negation).  `BUILD_DOCS` is also on by default with
  `BUILD_ALL` (C130_negation_docs).
* `set_test_label_file` for a missing file warns and then leaves the calling file by `return()`, so the labels after it
  are lost (C134_negation_missing); the labels of a second directory replace those of the first
  (C134_negation_directories); a label with `;` only gets its first part *(by reading)*.
* `add_test_executable` filters by `S**.C:**/S**.C/**`: suites of the same executable with a longer name run too
  (C135_negation_suites), instances `S.C/p` without name and type-parameterised `I/S/i.C` never run
  (C135_negation_never), an entry without tests passes (C135_negation_unknown).  In the repository:
  `cpp_utils/test/unittest/file/CMakeLists.txt:31` lists `read_file_one_line_strip_chars`, the test is
  `read_file_one_line_no_strip_chars`; `cpp_utils/test/unittest/qos/CMakeLists.txt:27` lists
  `qos_policy_id_to_string,` with a comma; neither test is ever run by `ctest` (examples in `Props/CMakeFilter.lean`).
* `all_library_sources` does not find the files directly in `src/cpp` (C136_negation); `compile_library` with MSVC takes
  the sources for the headers when headers are given (C136_negation_headers).
* Headers of a library with two names in `MODULE_HEADERS_PATH` are installed below the last one only, and those made from
  templates below both (C174_negation_path); with another `MODULE_INCLUDE_INSTALL_DIR` than `include` no header is found
  (C174_negation_directory); `MODULE_HEADERS_INSTALL_PATH` moves only the headers made from templates, away from the name
  the others include them by; headers `*.hxx` are not installed (C174_negation_names).
* `compile_tool` gives the include directories to the target with the name of the project, not of the module
  (C175_negation_project); a library ignores `MODULE_TARGET_NAME` (C175_negation_output); a module cannot have both a
  library and a tool (C175_negation_both).  The README documents a macro `compile_test` that does not exist *(by reading)*.
* Data races (C199): `begin` of `SafeDatabase` reads the map before it locks (C199_negation_begin); a `LesseePtr` reads the pointer in
  `operator bool` without the mutex (C199_negation_lessee); `enable` and `disable` of a `SlotThreadPool` change `threads_` at the same time
  (C199_negation_pool); `register_event_handler` of a `MultipleEventHandler` changes its list without a mutex (C199_negation_multiple);
  a `LogSevereEventHandler` registers itself before `threshold_` is set (C199_negation_construct); with several consumers the reference
  given by `DBQueue::front` is read while another pops (C199_negation_front; the class is documented for one consumer).
* Deadlocks (C200): a callback of an `EventHandler` that sets or unsets a callback, while another thread does (C200_negation_callback,
  C180); a callback of a `SignalManager` that registers or unregisters one, and so a callback of a `SignalEventHandler` that unsets
  itself (C200_negation_signalManager, C200_negation_signals); a predicate given to a `WaitHandler` that calls `get_value`
  (C200_negation_predicate); a thread that resets an `OwnerPtr` while it has a `GuardedPtr` of a lessee (C200_negation_owner); a
  thread that changes a `SafeDatabase` while it has an iterator (C200_negation_iterator).
* Builds in the source directory (C201): texts are compared, so a link to the source directory is accepted as build directory
  (C201_negation_link); the directories compared are those of the top project, so a module built in its own source directory is
  accepted (C201_negation_module); a refused call leaves `CMakeCache.txt` in the source directory, after which every
  `cmake <source>` from a build directory is refused too, until that file is deleted (C201_negation_again). The message does not say
  so.
* GoogleMock (C198): of several libraries in `GMOCK_LIBRARY` all but the first are linked in every configuration (C198_negation_list); a
  computer with libraries for debugging only has no GoogleMock, which is no error (C198_negation_missing); `GMOCK_ROOT` of the environment
  wins over the one given to CMake (C198_negation_root); and `check_gmock` called again after finding nothing appends the architecture
  again (C198_negation_arch).
* On Windows the `PATH` of tests lacks what is behind interface and imported libraries (C176_negation_through), libraries
  that use each other make CMake fail (C176_negation_cycle), and the entry of an executable without a list of tests gets
  no directories (C176_negation_unlisted).
* The package of an installed library cannot be found if the project has another name than the module
  (C177_negation_project), and does not look for dependencies other than Fast DDS and Fast CDR
  (C177_negation_dependency).
* A `VERSION` file without one of the numbers, or with a tab, is accepted: the version is `1.5.` (C129_negation_missing).
* Coverage and sanitizers look at both compilers at once: with `CC=clang CXX=g++` (or the other way round) GCC gets the
  flags of Clang (C137_negation).
* `MODULE_CPP_VERSION` set to the empty default of the README stops the configuration (C138_negation); the version is
  set without `CMAKE_CXX_STANDARD_REQUIRED`, and compilers other than GCC and Clang are not asked *(by reading)*.
* `option(BUILD_SHARED_LIBS ... ON)` removes a variable of the project at the first configuration and leaves it at the
  second, so the kind of libraries changes between them (C139_negation).
* Settings with only some of the version variables: the numbers are overwritten by the file, and `MODULE_VERSION` alone
  is kept next to the numbers of the file (C129_negation).  The comment of `read_version` promises `x.y.z` for
  `MODULE_VERSION_STRING`, code and README give `vx.y.z` *(by reading)*.
* `MODULE_SUMMARY` is `MODULE_NAME` by default, the README says `MODULE_NAME_LARGE`; a setting whose value reads as "no"
  (`0`, `OFF`, `N`, ...) is replaced (C131_negation).
* The default of the licence directory is kept in the cache, so a second module of the same build installs its licence
  under the name of the first (C133_negation); the README gives `share/` and the comment `/` as default *(by reading)*.
* `StdinEventHandler` loses count of rows: with prompt and line filling the last row the cursor is shown over the prompt
  (C153_negation_full), and moving it from or to there makes the next key overwrite the row above the prompt or show the
  first row twice (C153_negation_move, C153_negation_end); recalling a command with the cursor in an upper row clears rows
  above the prompt (C153_negation_recall); Enter there lets output cover the rest of the line (C154_negation); bytes are
  taken for columns and characters (C153_negation_bytes).
* Timeouts of the C++ wait handlers are dates of the system clock (`utils::now()` is `system_clock`): when it is set
  forward, waits time out early (C149_negation_set_forward), when it is set back they outlast their timeout by as much
  (C150_negation_set_back).  `PeriodicEventHandler` (`wait_for`) and the Python waits are not affected (C151, C152).
* `printUsage` does not cut a cell before the last column: an option wider than `width` makes a line wider than "the maximum
  number of characters per output line" (C147_negation_wide_option).
* `printUsage` silently drops the ninth and later cells of a row (C148_negation_ninth_column).
* `printUsage` never ends for a descriptor with a help text and a null `shortopt` (C145_null_shortopt; the documentation does
  not permit it), and a byte FF in a help text is undefined behaviour (C140_malicious_bytes; the documentation warns of
  malicious UTF-8).

Threads, pools, pointers, database
* Option parser: `Stats` with `gnu` reorders the vector, after which an option with an optional separate argument can
  get another neighbour, so that the parser finds more options than were counted and writes beyond the
  buffer (C127_negation); `--=5` is taken for the first option that has no long name (C128_negation).
* Task ids repeat after 2^32 calls (C122_negation); TaskId.hpp:36 speaks of random numbers, the code
  counts *(by reading)*.
* A re-enabled `SlotThreadPool` runs nothing (C61_negation); `wait_all_consumed`
  returns before the task starts (C62_negation); a task that throws `DisabledException`, as a consumer of any
  disabled queue does, silently ends its thread, after which the pool may run nothing (C155_negation_disabled), any
  other exception ends the process (C155_negation_other); a task that calls `disable` joins
  itself (C158_negation_disable), one that calls `wait_all_consumed` may wait for tasks that only its thread could
  execute (C158_negation_wait); `disable` during `enable` goes through `threads_` while
  it grows (C160_negation_race, C160_negation_clear), `enable` during `disable` can get its new threads destroyed while they run
  (C160_negation_aborts), and a second `disable` returns before the threads have finished (C160_negation_early).
* `StdinEventHandler`: a line that is being waited for when `unset_callback` is called is read and dropped, and counts as
  one that was asked for (C165_negation_lost); `unset_callback` and the destructor wait for a line to be typed
  (C167_negation_input, documented in the header); `unset_callback` in the callback ends the process
  (C167_negation_self) and `set_callback` in the callback deadlocks with `unset_callback` elsewhere
  (C167_negation_deadlock); two handlers that read at the same time leave the terminal raw (C168_negation), and change
  the static `oldt` and `newt` without synchronisation *(by reading)*; `source` and `read_lines` are ignored
  (C170_negation_source, C170_negation_words).
* `~PeriodicEventHandler` and the like call `unset_callback`, which counts only the threads between the increment and the
  decrement of `threads_waiting_`: one that was asleep may read the number of events after the destruction
  (C171_negation_waiting), one that was about to lock `wait_mutex_` locks it after the destruction
  (C171_negation_entering), and without a callback `unset_callback` returns at once although an event is being processed
  (C171_negation_event).
* `EventHandler`: `callback_ = …` (EventHandler.ipp:66, 102) destroys the function object, also while it is being executed:
  a callback that sets or unsets the callback of its own handler must not use its captured variables afterwards
  (C172_negation_set, C172_negation_unset), although the mutexes are recursive to allow such calls.
* Windows: the generated headers ask the linker for `NAME-M.m.lib` in the configurations RelWithDebInfo and MinSizeRel, where
  `compile_library` makes `NAMErd-M.m.lib` and `NAMEm-VERSION.lib` (compile_library.cmake:143-144, C189_negation_config); the
  guard of `eProsima_auto_link.h` has one name for all modules, so only the first library a file includes is asked for
  (C189_negation_two); a dash in `MODULE_MACRO` is replaced in the definition (compile_library.cmake:151) and not in the header,
  which cannot be compiled (C189_negation_dash); `compile_library` defines `EPROSIMA_USER_DLL_EXPORT`, the header looks at
  `<macro>_USER_DLL_EXPORT` (C189_negation_user_export).
* C194 (Windows): directories below are watched too and only the last part of the name is compared (FileWatch.hpp:431, 316-318;
  C194_negation_below); names are compared with their letters, though Windows does not distinguish them (C194_negation_case); the
  path is in the code page of the system and the names of changes in UTF-8 (FileWatch.hpp:398; C194_negation_code_page); renames to
  the file are not reported (C194_negation_rename); changes that do not fit into the buffer are lost without an error
  (FileWatch.hpp:448; C194_negation_full); attributes, permissions and times of last access count as modifications
  (FileWatch.hpp:186-194; C194_negation_same_text).
* C196: `what()` gives the message as a C string, so a message with a NUL is cut there (Exception.cpp:43-46; C196_negation_nul); the
  constructor from a pointer is `noexcept`, and the exception that `std::string` throws for a null pointer ends the process
  (Exception.cpp:25-29; C196_negation_null).
* C197: an option with a value that is no constant of CMake counts as yes for `if(BUILD_DOCS_TESTS)` and as no for
  `if(${BUILD_ALL} OR ${BUILD_DOCS_TESTS})`, so that the tests of the documentation are built without it (cmake_options.cmake:69;
  C197_negation_word); the targets `doc-dirs` and `Sphinx` have the same names in all modules, and two modules with documentation
  cannot be in one build (compile_documentation.cmake:35, 50; C197_negation_docs); `enable_testing` is called in the directory of the
  module, so `ctest` in the build directory of a project above it runs nothing (compile_test.cmake:23; C197_negation_top); the
  documentation is installed as component `monitor-sphinx`, but `html` is added to the components, and `eprosima_packaging` sets
  the list anew (compile_documentation.cmake:63, 68, eProsima_packaging.cmake:30; C197_negation_package).
* C195 (Windows): the destructor stores `_destory` and notifies without `_callback_mutex` (FileWatch.hpp:269-276), so the
  notification can come between the predicate and the wait of the callback thread (FileWatch.hpp:605-611); if the watching thread has
  already notified (FileWatch.hpp:490) it ends without another notification, and `join` does not return (C195_negation_lost).  When
  `GetOverlappedResult` fails once, the watching thread ends and the exception is dropped (FileWatch.hpp:251-260): changes are not
  reported any more (C195_negation_silent), and the destructor can hang (C195_negation_failed).
* C193: the guard of the configuration file keeps a second `find_package(cmake_utils)` from doing anything, so a project that
  assigns `CMAKE_MODULE_PATH` after the first one does not get the find modules back (cmakeonly-Config.cmake.in:19-29,
  load_all.cmake:39; C193_negation_path), and once `cmake_utils_FOUND` is unset or false the package is reported as not found
  for good (C193_negation_found).
* `config.h`: a module that is configured in the directory of another one gets the version and the commit of the outer one,
  because the variables are inherited and then neither file nor repository is looked at (C190_negation_nested); with the four
  version variables set by the project `<macro>_VERSION_STRING` is empty, the README gives `v${MODULE_VERSION}`
  (C190_negation_string); a minor version `07` gives the macro 7 and a library named with `07` (C190_negation_zeros).
* C191: the README promises "a version higher or equal" to `<library>_MINIMUM_VERSION`; the version files are written with
  `SameMajorVersion` (compile_library.cmake:266-272, CMakeLists.txt:98-105), so every module with a greater first number is
  refused (C191_negation).
* C192: the resources of all modules go to `share/resources` without the name of the module (install_resources.cmake:25-37), so
  files of the same name replace each other (C192_negation_resources); on Windows the licence goes to the prefix itself
  (installation_paths.cmake:46-52, C192_negation_license); `CPACK_COMPONENTS_ALL` has `headers`, `cmake` and, with MSVC,
  `libraries_ARCH`, to which nothing belongs, so packages made by components have neither the library nor the licence
  (eProsima_packaging.cmake:30-51, C192_negation_components).  By reading: the `COMPONENT libraries` of `install(TARGETS)` follows
  `ARCHIVE DESTINATION` (compile_library.cmake:202-208) and holds for archives only; `CPACK_PACKAGE_DESCRIPTION_SUMMARY` uses a
  variable that nothing sets (eProsima_packaging.cmake:38).
  Neither the `VERSION` file nor the commit is something the build depends on, so a build after a new commit keeps the old ones
  until CMake runs again *(by reading)*.
* Pool: double return undetected (C66_negation), 2^32 wrap (C66_wrap),
  `delete_element_` not dispatched in the destructor (C89_negation).
* Pool: `augment_free_values_` adds to `reserved_` after the loop, so elements built before one that throws are not counted:
  afterwards `return_loan` refuses an element on loan, which is then lost (C186_negation), and takes one that is not on loan
  (C186_negation_excess).
* `ConsumerWaitHandler::consume` decrements the counter before it copies the value: if the copy throws, one value more than
  the counter says stays in the queue for ever, and `wait_all_consumed` ignores it (C187_negation).
* `InternalPtrData::release_reference_` locks without a guard object: a deleter that throws leaves the mutex locked and the
  reference set, so that the destructor of the owner and `lock` of lessees never return (C188_negation); in the destructor
  and in a move assignment the exception ends the process (C188_negation_noexcept).
* Callbacks of `EventHandler` and predicates of `WaitHandler::wait` are called in `noexcept` functions (EventHandler.ipp:177-186,
  WaitHandler.hpp:136 and 169): an exception of them ends the process *(by reading)*.
* `LesseePtr` `->` and `*` unprotected (C69_negation), `operator bool` races
  (C90_negation), assigning a guard leaks its lock and self-move deletes (C70);
  `LesseePtr(const OwnerPtr&)`, LesseePtr.hpp:74, is declared and not defined *(by reading)*.
* `SafeDatabase`: `begin` positions before locking, copies unlock twice (C64
  negations), `find` deadlocks with a waiting writer if the mutex lets
  writers go first (C86_negation).

## Axioms

From `#print axioms` on every theorem named in `MANIFEST.json`.  No theorem uses any
other axiom; there is no `sorry`, `native_decide` or `bv_decide`.

* no axiom (20): C18_negation, C23_negation, C24_negation, C26_srv_package, C28_negation, C33_addBranch, C37_compare, C37_print, C40_seeded, C45_negation, C59_clear, C59_push_hidden, C66_negation, C163_negation, C163_release, C163_user, C174_negation_names, C174_negation_path, C186_reset, C194_write.

* `propext` (98): C04_negation, C07_negation, C18_prefix_partial, C29_history, C29_names, C30_monotone, C32_always_zero, C38_history, C40_construction, C41_negation, C42_start, C44_idle_partial, C48_negation, C49_negation, C50_wrap, C51_int_update, C52_bool, C52_int, C52_no_lost_wakeup, C53_negation, C56_negation_rising, C58_negation, C59_both_empty, C59_complete, C59_order, C59_swap_delivers, C62_negation, C73_negation_construct, C73_negation_early, C73_negation_other, C74_child, C77_negation_range, C78_edit_partial, C89_negation, C93_negation, C94_negation, C108_negation_change, C108_negation_unset, C112_negation_self_unset, C114_negation_swallowed, C116_negation_silent, C118_negation_repr, C118_negation_wrapper, C119_methods_partial, C119_negation, C127_negation, C128_negation, C129_negation, C130_negation, C130_negation_docs, C131_negation, C131_required, C134_negation_missing, C136_negation_headers, C149_counter_negation_set_forward, C149_negation_set_forward, C153_negation_bytes, C153_negation_end, C153_negation_full, C153_negation_move, C153_negation_recall, C154_negation, C155_negation_other, C158_negation_disable, C158_negation_wait, C160_negation_aborts, C160_negation_clear, C160_negation_early, C160_negation_race, C161_negation_element, C161_negation_gone, C161_negation_granted, C164_negation_class, C164_negation_twice, C167_negation_deadlock, C167_negation_self, C168_restored_partial, C170_negation_words, C175_off, C177_negation_dependency, C179_function, C182_negation_rename, C182_rename, C183_order, C186_negation, C186_negation_excess, C188_guard, C188_negation_noexcept, C188_reset_partial, C189_all_dyn, C189_both, C189_runtime, C192_packaged_partial, C194_negation_same_text, C196_negation_null, C197_negation_package, C201_negation_link, C201_refused_generates_nothing.

* `Quot.sound` (2): C163_debug, C163_dev_partial.

* `Quot.sound`, `propext` (310): C02_divisor_zero, C03_fastExponential, C03_fastExponential_exact, C11_laws, C11_lowercase, C11_uppercase, C12_negation, C12_padding, C14_decode_stops, C18_partial, C19_contains, C19_exact, C19_negation, C19_negation_repeated, C19_negation_same, C20_lines_exist, C21_changes, C21_demangle, C21_injective, C21_roundtrip, C23_partial, C27_negation, C29_levels, C30_filter, C30_filter_throws, C30_verbosity, C32_leaf_partial, C32_negation, C33_leaf, C34_find, C34_value, C35_expands, C36_text, C40_sequence, C41_safe_partial, C41_ub_iff, C42_cursor, C42_prev_after_add, C42_undo, C43_editor_partial, C43_fresh_partial, C43_negation, C44_negation, C46_count, C47_leaves, C47_result, C48_silent, C48_until_set, C49_log, C49_round, C49_rounds, C50_called, C50_register, C50_unregister, C51_arguments, C51_disabled, C54_grant, C54_increments, C54_reason, C55_no_lost_wakeup, C56_negation_disable, C57_fifo, C57_produced, C57_returned, C57_returned_only, C58_negation_all, C59_front, C64_negation_begin, C64_negation_copy, C64_negation_race, C68_lease, C69_negation, C70_negation_self, C72_bool_effects, C72_int_effects, C72_negation, C72_status, C74_count, C74_refines, C75_construct, C75_one_thread, C75_silent, C75_started, C75_stopped, C78_negation, C79_false_partial, C79_negation, C80_silent, C86_negation, C88_config, C89_default_partial, C90_negation, C91_negation, C92_raise, C95_negation_change, C95_negation_simulate, C95_negation_timer, C96_only_set, C96_serial, C97_negation_short, C100_negation, C102_code, C102_comment_partial, C102_complete_partial, C102_filled_partial, C102_negation, C102_negation_comment, C103_declares_partial, C104_roundtrip, C104_text, C105_negation, C105_text, C106_keys, C107_no_terminate, C107_registered, C107_unused, C110_calls, C110_calls_changing, C112_negation_deleted, C112_negation_lost, C112_negation_set_in_callback, C112_negation_unset_in_callback, C113_unset, C113_unset_changing, C114_deaf, C114_watched_changing_partial, C114_watched_partial, C115_events, C115_single_file, C116_unused_partial, C117_formats, C117_negation, C117_once_partial, C118_negation_name, C118_same_partial, C118_written, C121_open, C122_distance, C122_negation, C122_unique_partial, C123_utc, C130_log_partial, C130_options_partial, C130_succeeds, C131_negation_all, C131_settings_partial, C131_twice, C132_error_iff, C132_packages, C133_directories_partial, C133_negation, C135_negation_never, C135_negation_suites, C135_report_partial, C135_selected_partial, C136_negation, C138_negation, C140_malicious_bytes, C142_lines_fit, C142_nothing_lost, C142_unique, C145_null_shortopt, C149_all_executions, C149_counter_all_executions, C149_counter_not_early_partial, C149_not_early_partial, C149_system_clock, C150_negation_set_back, C151_all_executions, C151_not_early, C152_all_executions, C154_below_partial, C156_recorded, C161_negation_hangs, C162_compose, C162_composed, C162_contains, C162_exist, C162_single, C163_when, C165_all_partial, C165_called, C165_count, C165_negation_lost, C165_one_thread, C165_order, C165_quiet, C165_started, C165_stopped, C167_negation_input, C169_order, C169_typed, C170_lines_partial, C170_negation_source, C171_negation_entering, C171_negation_event, C171_negation_waiting, C172_counted, C172_last_partial, C172_latest, C172_negation_set, C172_negation_unset, C172_none, C172_raise_partial, C174_found_partial, C174_negation_directory, C174_place, C175_library_partial, C175_negation_both, C175_negation_output, C175_negation_project, C175_tool_partial, C176_exact, C176_negation_through, C176_negation_unlisted, C176_path_partial, C177_negation_project, C178_guarded_partial, C178_negation, C178_some_partial, C179_fwrite, C179_negation, C179_ostream, C179_syscall_partial, C180_negation_order, C184_last, C184_negation_again, C184_valid_partial, C185_add, C185_remove_partial, C187_all_partial, C187_consistent, C187_negation, C187_number, C187_order, C189_again, C189_api, C189_elsewhere, C189_link_partial, C189_negation_config, C189_negation_dash, C189_negation_two, C189_negation_user_export, C189_silent, C191_any, C192_apart_partial, C192_negation_components, C192_negation_license, C192_negation_resources, C193_found_partial, C193_negation_found, C193_negation_path, C193_never_stops, C193_scope, C193_templates, C194_buffer, C194_directory, C194_negation_full, C195_calls, C195_delivered, C195_negation_failed, C195_negation_lost, C195_negation_silent, C195_quiet, C196_says_partial, C197_modules_partial, C197_negation_docs, C197_negation_top, C197_negation_word, C197_parts_partial, C197_tests, C197_top_partial, C198_arch_partial, C198_directories, C198_found_iff, C198_given, C198_negation_arch, C198_negation_missing, C198_negation_root, C198_searched, C198_searched_msvc, C199_dbQueue, C199_dbQueue_noFront, C199_eventHandler, C199_log, C199_negation_begin, C199_negation_construct, C199_negation_front, C199_negation_lessee, C199_negation_multiple, C199_negation_pool, C199_owner_partial, C199_periodic, C199_pool_partial, C199_queueHandler, C199_random, C199_safeDatabase_partial, C199_signalManager, C199_waitHandler, C199_worker, C200_negation_callback, C200_negation_iterator, C200_negation_owner, C200_negation_predicate, C200_negation_signalManager, C200_negation_signals, C201_apart_partial, C201_explicit_partial, C201_negation_again, C201_negation_module.

* `Classical.choice`, `Quot.sound`, `propext` (388): C01_isEven, C01_isPowerOf2, C02_fastDivision, C02_fastModule, C04_exact, C04_partial, C05_split, C05_unique, C06_splitSet, C07_partial, C08_replaceFirst, C09_negation, C09_negation_empty, C09_negation_rescan, C09_result, C09_simultaneous_partial, C09_terminates_shrinking_partial, C10_strip, C12_guard_partial, C12_negation_negative, C12_negation_ten, C12_refused_iff, C12_ub_iff, C12_written, C13_injective, C13_roundtrip, C14_alphabet, C14_encode_rfc4648, C14_length, C15_decode_exact, C15_encode_exact, C15_encode_partial, C15_negation, C15_negation_decode, C16_accepts_partial, C16_case, C16_close, C16_exact, C16_malformed, C16_negation_fraction, C16_negation_rejected, C16_negation_tiny, C16_negation_ub, C16_out_of_range_iff, C16_too_large_partial, C16_ub_iff, C16_unknown_unit, C17_negation_carry, C17_negation_percent, C17_percent_partial, C17_range_partial, C17_text, C19_partial, C20_fileToString, C20_fileToStrings, C22_demangle_exact, C22_roundtrip, C22_roundtrip_plain, C22_unchanged, C24_mangle_exact, C24_negation_all, C24_roundtrip_iff, C24_roundtrip_partial, C25_generic, C25_reply, C25_request, C26_rejects, C26_roundtrip, C27_accepts, C27_exact, C27_negation_all, C27_negation_order, C27_partial, C28_doc_partial, C28_equivalence, C28_exact, C31_consume, C31_monotone, C33_allNodes, C35_roundtrip, C36_injective, C37_convert, C38_once, C39_elapsed, C39_playing, C45_negation_all, C45_nonempty, C45_open, C45_roundtrip_partial, C46_nested, C46_once, C46_refines, C47_no_lost_wakeup, C47_wakes, C48_barrier_partial, C48_returns, C49_handled_partial, C51_bool, C51_int, C51_reason, C52_wakes, C53_counter, C53_drained_partial, C53_returns, C53_status, C54_conservation, C55_chain, C55_disabled_wakes, C55_granted, C56_returns_partial, C56_wakes_partial, C58_never_empty_partial, C60_conservation, C60_emit, C60_emitted_only, C60_kept, C60_no_abort, C60_once, C60_slot, C60_started_only, C60_task, C61_kept_partial, C61_negation, C61_never_again, C61_queue_stays_disabled, C62_taken_partial, C63_call, C63_sequential, C64_advance_partial, C64_deref_partial, C64_frozen_partial, C64_valid_partial, C65_accounting, C65_loan, C65_return, C66_destroy_partial, C66_excess, C66_wrap, C67_call, C67_guard, C67_keeps, C67_null, C67_once, C67_released, C68_empty, C68_found, C68_gone, C68_held, C68_returns, C69_guarded_partial, C69_owned_partial, C70_guard_partial, C70_negation_guard, C70_owner_partial, C70_returns_partial, C71_drained, C71_negation, C71_negation_spin, C71_returns_partial, C72_equal, C72_greater, C72_greater_equal, C72_no_lost_wakeup, C72_open, C72_reason, C72_wakes_partial, C73_check_partial, C73_created, C73_exact_partial, C73_negation_wrap, C73_only, C75_returns, C76_compare, C76_lifetime, C76_refines, C76_write, C77_date, C77_monotone, C77_negation_text, C77_parse_partial, C77_print, C77_range_partial, C77_text_partial, C80_returns, C81_no_start, C81_quiet, C82_threads, C83_consumed, C84_executed, C85_disable_returns, C86_find_partial, C87_all, C87_readers, C88_allocated, C90_locked_partial, C91_released_partial, C92_count_partial, C92_negation, C93_alive_partial, C93_in_use_partial, C93_silent_partial, C94_class_partial, C95_change_partial, C96_spacing, C96_ticks, C97_fields, C97_letters, C97_negation_day, C97_negation_trailing, C97_rejects_partial, C98_today, C99_idempotent, C99_nearest, C100_negation_all, C100_second_partial, C101_back_partial, C101_negation, C101_small, C103_arguments, C103_main_partial, C103_negation_trailing, C104_macro, C105_read_back_partial, C106_convert, C106_equal, C108_returns_partial, C109_round, C111_called, C112_returns_partial, C116_first_decides, C116_global, C116_negation_noisy, C116_set_partial, C120_elapsed_partial, C120_exact, C120_negation, C121_literal, C121_match_partial, C121_negation, C121_star, C123_negation_overlap, C123_negation_refused, C123_print, C123_same_text, C123_text_partial, C124_roundtrip, C125_reorder, C126_lists, C127_original_partial, C127_sizes_partial, C128_long_partial, C129_configured_partial, C129_negation_all, C129_negation_missing, C129_read, C132_honoured_partial, C132_negation, C134_labels_partial, C134_negation_directories, C134_projects, C135_negation_unknown, C136_headers_partial, C136_library, C136_tests_partial, C137_flags_partial, C137_negation, C137_quiet, C137_refused, C138_version_partial, C139_defaults_partial, C139_negation, C140_measured, C141_grid, C142_wrap, C143_queue, C144_columns, C144_natural, C145_table_breaks, C145_tables, C146_aligned, C147_line_width_partial, C147_negation_wide_option, C148_negation_ninth_column, C148_nothing_lost_partial, C150_ends_partial, C152_first, C152_period, C153_screen_partial, C155_executed_partial, C155_negation_disabled, C156_linear, C156_seeded, C156_seeded_sequence, C156_shared_sequence, C157_returns, C158_calls_return_partial, C158_disable_returns_partial, C158_executed_partial, C159_consume_ends, C159_pool_ends, C159_wait_ends, C160_bound_partial, C160_joined_partial, C160_no_race_partial, C160_threads_partial, C161_ends_partial, C161_reason_partial, C161_safe_partial, C162_windows, C164_class_partial, C164_once_partial, C166_delivers, C167_returns_partial, C168_apart_partial, C168_negation, C168_raw, C169_on_request, C169_returns, C171_ends, C171_events_partial, C171_waits_partial, C173_counts, C173_ends, C173_event_ends, C173_exclusive, C173_quiet, C173_safe, C173_sum, C176_ends_iff, C176_negation_cycle, C177_found_partial, C180_calls_return_partial, C180_events_return_partial, C180_negation_wait, C180_wait_returns_partial, C181_counter, C181_status, C181_value, C182_exact, C182_negation_hard_link, C182_negation_link, C182_reports_partial, C183_alone, C183_negation_any, C183_negation_overflow, C183_noted_partial, C184_shared, C185_negation, C186_accounting, C186_loan, C186_message, C186_refused, C186_returns_partial, C186_single, C188_negation, C188_once, C190_config_partial, C190_missing, C190_negation_nested, C190_negation_string, C190_negation_zeros, C191_exact, C191_found_partial, C191_negation, C194_negation_below, C194_negation_case, C194_negation_code_page, C194_negation_rename, C194_reported_partial, C195_reported, C195_returns_partial, C196_caught, C196_negation_nul, C198_linked_partial, C198_negation_list, C200_dbQueue, C200_eventHandler_partial, C200_log_partial, C200_multiple_partial, C200_owner_partial, C200_periodic_partial, C200_pool, C200_queueHandler, C200_random, C200_signalManager_partial, C200_signals_partial, C200_waitHandler_partial, C200_worker_partial.
