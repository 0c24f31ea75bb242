{"id": "C01", "title": "Parity and power-of-two tests are exact", "statement": "is_even(n) returns true exactly when n is a multiple of 2, and is_power_of_2(n) returns true exactly when n = 2^k for some k >= 0; in particular is_power_of_2(0) is false.", "quantifier": "every 32-bit unsigned n", "why_tests_cant": "2^32 inputs; the bit trick is correct only by an argument about carries, not by samples.", "anchors": ["cpp_utils/src/cpp/math/math_extension.cpp:is_even", "cpp_utils/src/cpp/math/math_extension.cpp:is_power_of_2"]}
{"id": "C02", "title": "fast_division and fast_module agree with / and %", "statement": "For every dividend and every non-zero divisor, fast_division returns floor(dividend/divisor) and fast_module returns the remainder, whatever shortcut branch is taken, and the halving loop of fast_division terminates. With divisor 0 a debug build aborts; a release build has undefined behaviour, except for 0/0 where the shortcut for equal operands returns.", "quantifier": "every pair of 32-bit unsigned integers", "why_tests_cant": "2^64 input pairs spread over five special-case branches and one loop.", "anchors": ["cpp_utils/src/cpp/math/math_extension.cpp:fast_division", "cpp_utils/src/cpp/math/math_extension.cpp:fast_module"]}
{"id": "C03", "title": "fast_exponential is exponentiation modulo 2^32", "statement": "fast_exponential(b,e) terminates and returns b^e reduced modulo 2^32; in particular it returns the exact power whenever that power fits in 32 bits.", "quantifier": "every 32-bit base and exponent", "why_tests_cant": "recursion depth and wrap-around depend on the exponent; 2^64 pairs.", "anchors": ["cpp_utils/src/cpp/math/math_extension.cpp:fast_exponential"]}
{"id": "C04", "title": "arithmetic_progression_sum returns the sum", "statement": "arithmetic_progression_sum(lowest, interval, steps) returns lowest + (lowest+interval) + ... (steps terms) whenever that sum fits in the 32-bit result.", "quantifier": "every 32-bit triple (lowest, interval, steps)", "why_tests_cant": "the intermediate product wraps before the halving, so failures sit in a thin region of a 2^96 space.", "anchors": ["cpp_utils/src/cpp/math/math_extension.cpp:arithmetic_progression_sum"]}
{"id": "C05", "title": "split_string is lossless and complete", "statement": "split_string(source, delimiter) with a non-empty delimiter returns pieces none of which contains the delimiter and which, joined again with the delimiter, give exactly source; the pieces are the ones cut at the leftmost non-overlapping occurrences. It always returns at least one piece.", "quantifier": "every source string shorter than 2^31 bytes and every non-empty delimiter", "why_tests_cant": "strings are unbounded and delimiters may overlap themselves (e.g. \"aa\" in \"aaa\").", "anchors": ["cpp_utils/src/cpp/utils.cpp:split_string"]}
{"id": "C06", "title": "split_string over a set of delimiters leaves no delimiter behind", "statement": "split_string(source, {d1,...,dk}) with non-empty delimiters returns pieces that contain none of the delimiters and preserve, in order, every character of source that is not part of a cut.", "quantifier": "every source and every finite set of non-empty delimiters", "why_tests_cant": "the delimiters may overlap each other and are applied one after the other; unbounded inputs.", "anchors": ["cpp_utils/src/cpp/utils.cpp:split_string"]}
{"id": "C07", "title": "split_string terminates", "statement": "split_string returns for every source and delimiter, including the empty delimiter.", "quantifier": "every source and delimiter", "why_tests_cant": "non-termination cannot be observed by a passing test; it only shows as a hang on the inputs nobody tried.", "anchors": ["cpp_utils/src/cpp/utils.cpp:split_string"]}
{"id": "C08", "title": "replace_first replaces exactly the leftmost occurrence", "statement": "replace_first(st, a, b) returns false and leaves st unchanged when a does not occur in st; otherwise it returns true and st becomes prefix + b + suffix where prefix + a + suffix was st and prefix is the shortest such prefix.", "quantifier": "every triple of strings", "why_tests_cant": "unbounded strings; leftmost-match condition quantifies over all earlier positions.", "anchors": ["cpp_utils/src/cpp/utils.cpp:replace_first"]}
{"id": "C09", "title": "replace_all removes every occurrence and terminates", "statement": "replace_all(st, a, b) returns; afterwards a does not occur in st, and the returned number is the number of substitutions performed. When no substitution can create a new occurrence the result is the usual simultaneous left-to-right replacement.", "quantifier": "every triple of strings", "why_tests_cant": "termination for all inputs is not testable; new occurrences can be created across the seam of a replacement.", "anchors": ["cpp_utils/src/cpp/utils.cpp:replace_all"]}
{"id": "C10", "title": "strip_str removes exactly the undesired characters", "statement": "strip_str(s) with the default arguments removes every line feed and carriage return, keeps every other character in its order, and returns how many characters were removed.", "quantifier": "every string", "why_tests_cant": "unbounded strings.", "anchors": ["cpp_utils/src/cpp/utils.cpp:strip_str", "cpp_utils/include/cpp_utils/utils.hpp:strip_str"]}
{"id": "C11", "title": "Case conversion is a per-byte ASCII map", "statement": "to_lowercase and to_uppercase preserve length and every non-letter byte, are idempotent, and to_lowercase(to_uppercase(s)) = to_lowercase(s); two strings have equal lowercase forms exactly when they have equal uppercase forms.", "quantifier": "every byte string (C locale)", "why_tests_cant": "unbounded strings over 256 byte values.", "anchors": ["cpp_utils/src/cpp/utils.cpp:to_lowercase", "cpp_utils/src/cpp/utils.cpp:to_uppercase"]}
{"id": "C12", "title": "number_trailing_zeros_format pads and guards width", "statement": "For a non-negative value the result is the decimal representation of the value, left-padded with zeros to at least n_chars; with allow_more_chars = false the call throws exactly when the decimal representation needs more than n_chars characters.", "quantifier": "every int value, every n_chars, both flag values", "why_tests_cant": "2^65 inputs; the guard uses a power that wraps modulo 2^32.", "anchors": ["cpp_utils/src/cpp/utils.cpp:number_trailing_zeros_format"]}
{"id": "C13", "title": "base64 round-trip", "statement": "base64_decode(base64_encode(s)) = s.", "quantifier": "every byte string s", "why_tests_cant": "unbounded strings; the accumulator overflows after four bytes so correctness rests on a bit-level invariant.", "anchors": ["cpp_utils/src/cpp/utils.cpp:base64_encode", "cpp_utils/src/cpp/utils.cpp:base64_decode"]}
{"id": "C14", "title": "base64_encode produces standard base64", "statement": "base64_encode(s) is the RFC 4648 encoding: length 4*ceil(len/3), alphabet characters followed by at most two = signs, each 3-byte group mapped to four 6-bit digits.", "quantifier": "every byte string s", "why_tests_cant": "unbounded strings.", "anchors": ["cpp_utils/src/cpp/utils.cpp:base64_encode", "cpp_utils/include/cpp_utils/utils.hpp:base64_alphabet"]}
{"id": "C15", "title": "base64_encode/decode are free of undefined behaviour", "statement": "Encoding or decoding never executes an operation that is undefined in C++ (signed left shift of a negative value or beyond the representable range).", "quantifier": "every byte string", "why_tests_cant": "whether a shift is undefined depends on the exact value accumulated so far; sanitizers only see the inputs that are run.", "anchors": ["cpp_utils/src/cpp/utils.cpp:base64_encode", "cpp_utils/src/cpp/utils.cpp:base64_decode"]}
{"id": "C16", "title": "to_bytes converts or rejects, never misbehaves", "statement": "to_bytes(\"<n><unit>\") returns n times the unit (exactly for integer n as long as the product is below 2^53), is case-insensitive in the unit, throws on every malformed text, unknown unit, and on every quantity that does not fit in 64 bits, and has no undefined behaviour.", "quantifier": "every input text", "why_tests_cant": "unbounded texts; the overflow guard is evaluated in double precision and its boundary is a single rounding step.", "anchors": ["cpp_utils/src/cpp/utils.cpp:to_bytes"]}
{"id": "C17", "title": "from_bytes prints a number in [1,1000) with the largest unit", "statement": "from_bytes(b) for b in [1, 10^18) prints a number that is at least 1 and less than 1000, followed by a unit, and the printed quantity differs from b by at most 1% of the unit.", "quantifier": "every 64-bit byte count", "why_tests_cant": "2^64 inputs; rounding to two decimals can carry.", "anchors": ["cpp_utils/src/cpp/utils.cpp:from_bytes"]}
{"id": "C18", "title": "Formatter returns everything streamed into it", "statement": "Formatter().<<(a)<<(b)...to_string() is the concatenation of all streamed pieces, in order.", "quantifier": "every sequence of pieces", "why_tests_cant": "unbounded sequences; only contents with particular bytes are affected.", "anchors": ["cpp_utils/src/cpp/Formatter.cpp:to_string", "cpp_utils/include/cpp_utils/impl/Formatter.ipp"]}
{"id": "C19", "title": "Sets of pointers are compared by pointed-to value", "statement": "set_of_ptr_contains(s, v) is true exactly when some pointer of s points to a value equal to v; are_set_of_ptr_equal(a, b) is true exactly when a and b point to the same set of values, hence is symmetric.", "quantifier": "every pair of pointer sets", "why_tests_cant": "sets are unbounded and may hold several pointers to equal values.", "anchors": ["cpp_utils/include/cpp_utils/impl/utils.ipp:set_of_ptr_contains", "cpp_utils/include/cpp_utils/impl/utils.ipp:are_set_of_ptr_equal"]}
{"id": "C20", "title": "Reading a file keeps its lines", "statement": "file_to_strings returns the lines of the file in order (without carriage returns when stripping, without empty lines when asked), and file_to_string without stripping returns the file content, with a final newline added when the last line has none.", "quantifier": "every file content", "why_tests_cant": "unbounded contents; edge cases at the last line.", "anchors": ["cpp_utils/src/cpp/file/file_utils.cpp:file_to_strings", "cpp_utils/src/cpp/file/file_utils.cpp:file_to_string"]}
{"id": "C21", "title": "ROS topic mangling round-trips", "statement": "demangle_if_ros_topic(mangle_if_ros_topic(t)) = t for every topic name that is not already mangled; mangling changes exactly the names that start with \"/\", and never maps two different ROS names to one DDS name.", "quantifier": "every topic name", "why_tests_cant": "unbounded names.", "anchors": ["cpp_utils/src/cpp/ros2_mangling.cpp:mangle_if_ros_topic", "cpp_utils/src/cpp/ros2_mangling.cpp:demangle_if_ros_topic", "cpp_utils/src/cpp/ros2_mangling.cpp:remove_ros_prefix_if_exists", "cpp_utils/src/cpp/ros2_mangling.cpp:get_ros_prefix_if_exists"]}
{"id": "C22", "title": "ROS message type mangling round-trips", "statement": "demangle_if_ros_type(mangle_if_ros_type(T)) = T for every ROS type T = <package>/msg/<Name> whose package has no \"::\", \":\" at its end or \"dds_\" suffix clash, and names that are not ROS message types are returned unchanged by both functions.", "quantifier": "every type name", "why_tests_cant": "unbounded names; the namespace separator is rewritten by a re-scanning replacement.", "anchors": ["cpp_utils/src/cpp/ros2_mangling.cpp:mangle_if_ros_type", "cpp_utils/src/cpp/ros2_mangling.cpp:demangle_if_ros_type"]}
{"id": "C23", "title": "demangle_if_ros_type accepts every string", "statement": "demangle_if_ros_type is defined (returns some string) for every argument, including the empty string.", "quantifier": "every string", "why_tests_cant": "an out-of-bounds read on one input is invisible to tests that do not use that input under a sanitizer.", "anchors": ["cpp_utils/src/cpp/ros2_mangling.cpp:demangle_if_ros_type"]}
{"id": "C24", "title": "ROS service topic mangling round-trips", "statement": "For every ROS service name (absolute, starting with \"/\"), demangling the request (reply) topic obtained by mangling it gives the service name back.", "quantifier": "every absolute service name", "why_tests_cant": "unbounded names with any number of segments.", "anchors": ["cpp_utils/src/cpp/ros2_mangling.cpp:mangle_ros_service_request_prefix_in_topic", "cpp_utils/src/cpp/ros2_mangling.cpp:mangle_ros_service_reply_prefix_in_topic", "cpp_utils/src/cpp/ros2_mangling.cpp:demangle_ros_service_request_prefix_from_topic", "cpp_utils/src/cpp/ros2_mangling.cpp:demangle_ros_service_reply_prefix_from_topic"]}
{"id": "C25", "title": "Service topic demangling accepts exactly well-formed topics", "statement": "demangle_ros_service_request_prefix_from_topic returns a non-empty name exactly for topics of the form \"rq\" + \"/\" + name + \"Request\" and returns \"/\" + name for them (same for \"rr\" and \"Reply\"); the generic variant agrees with whichever applies, and no topic is accepted by both.", "quantifier": "every topic name", "why_tests_cant": "unbounded names; suffix may also occur inside the name.", "anchors": ["cpp_utils/src/cpp/ros2_mangling.cpp:demangle_ros_service_prefix_from_topic", "cpp_utils/src/cpp/ros2_mangling.cpp:remove_prefix"]}
{"id": "C26", "title": "Service type mangling round-trips", "statement": "demangle_service_type_only(mangle_service_type_only(x)) = x for every x = (rq|rr)/<package>/srv/<Name> for every package without \"/\" or \":\" that is not \"srv\" and does not end in \"dds_\", and every name without \"/\".", "quantifier": "every such type name", "why_tests_cant": "unbounded names.", "anchors": ["cpp_utils/src/cpp/ros2_mangling.cpp:mangle_service_type_only", "cpp_utils/src/cpp/ros2_mangling.cpp:demangle_service_type_only"]}
{"id": "C27", "title": "demangle_service_type_only rejects names that are not service types", "statement": "demangle_service_type_only returns a non-empty name only for names that contain \"dds_::\" and end in \"_Request_\" or \"_Response_\".", "quantifier": "every type name", "why_tests_cant": "the loop leaves a stale position behind for one ordering of suffixes only.", "anchors": ["cpp_utils/src/cpp/ros2_mangling.cpp:demangle_service_type_only"]}
{"id": "C28", "title": "Fuzzy equality is an equivalence and follows its documentation", "statement": "== on Fuzzy values is reflexive, symmetric and transitive, != is its negation; two values are equal exactly when both are invalid, or both are set and hold the same value.", "quantifier": "every pair/triple of Fuzzy values and levels", "why_tests_cant": "levels are 16-bit and values arbitrary.", "anchors": ["cpp_utils/include/cpp_utils/types/impl/Fuzzy.ipp:operator ==", "cpp_utils/include/cpp_utils/types/Fuzzy.hpp"]}
{"id": "C29", "title": "Fuzzy levels are consistent", "statement": "is_set implies is_valid; unset makes the object invalid and leaves the stored value; set_value stores both value and level; comparing with a plain value is false for invalid objects and otherwise compares the stored value; operations never change anything else.", "quantifier": "every history of Fuzzy operations", "why_tests_cant": "histories are unbounded.", "anchors": ["cpp_utils/include/cpp_utils/types/impl/Fuzzy.ipp"]}
{"id": "C30", "title": "Log configuration keeps the highest-priority setting", "statement": "After any sequence of set(verbosity) calls the configuration holds the most recent value among those of the highest fuzzy level given so far (including the default), and its level never decreases; the same for each filter kind independently.", "quantifier": "every sequence of set calls", "why_tests_cant": "unbounded histories.", "anchors": ["cpp_utils/src/cpp/logging/BaseLogConfiguration.cpp:set"]}
{"id": "C31", "title": "Log consumer filters by kind and content", "statement": "An entry is printed exactly when its kind is at least as severe as the verbosity and its category or message matches the filter of its kind; errors and warnings go to stderr, the rest to stdout; raising verbosity never hides an entry.", "quantifier": "every entry, verbosity and filter", "why_tests_cant": "regex and texts are unbounded (matching is a parameter of the model).", "anchors": ["cpp_utils/src/cpp/logging/BaseLogConsumer.cpp:accept_entry_", "cpp_utils/src/cpp/logging/StdLogConsumer.cpp"]}
{"id": "C32", "title": "TreeNode::depth is the height of the tree", "statement": "depth() is 0 for a leaf and otherwise one more than the largest depth of a branch.", "quantifier": "every finite tree", "why_tests_cant": "unbounded trees.", "anchors": ["cpp_utils/include/cpp_utils/types/impl/Tree.ipp:depth"]}
{"id": "C33", "title": "TreeNode::all_nodes lists every proper descendant once", "statement": "all_nodes() contains every proper descendant of the node exactly as many times as it occurs in the tree, and nothing else; leaf() holds exactly when all_nodes() is empty.", "quantifier": "every finite tree", "why_tests_cant": "unbounded trees.", "anchors": ["cpp_utils/include/cpp_utils/types/impl/Tree.ipp:all_nodes", "cpp_utils/include/cpp_utils/types/impl/Tree.ipp:leaf"]}
{"id": "C34", "title": "Builder/EnumBuilder looks up exactly the registered names", "statement": "A builder made from value -> set-of-names returns, for a name, a value it is registered under (the greatest one if several), and fails (false / ValueNotAllowedException, output untouched) exactly for unregistered names.", "quantifier": "every registration map and every name", "why_tests_cant": "unbounded maps; overlaps between sets.", "anchors": ["cpp_utils/include/cpp_utils/types/impl/Builder.ipp", "cpp_utils/include/cpp_utils/enum/impl/EnumBuilder.ipp"]}
{"id": "C35", "title": "Enumeration macro round-trips names", "statement": "For an enumeration built by ENUMERATION_BUILDER with up to 18 distinct names, from_string(to_string(e)) = e, to_string(from_string(s)) = s when s is a name, every other string is rejected, and the number of values is the number of arguments.", "quantifier": "every list of names and every string", "why_tests_cant": "all enumerations, all strings; macro argument counting breaks past a fixed arity.", "anchors": ["cpp_utils/include/cpp_utils/macros/custom_enumeration.hpp:ENUMERATION_BUILDER", "cpp_utils/include/cpp_utils/macros/recursive_macros.hpp:COUNT_ARGUMENTS"]}
{"id": "C36", "title": "QoS mask text lists exactly the set policies", "statement": "qos_policy_mask_to_string(mask) is the \", \"-joined list, in increasing id order, of the names of exactly the policies set in the mask, and \"Invalid\" when none is set; two masks that differ in a real policy get different texts.", "quantifier": "every policy mask", "why_tests_cant": "2^37 masks.", "anchors": ["cpp_utils/src/cpp/qos/qos_utils.cpp:qos_policy_mask_to_string"]}
{"id": "C37", "title": "ReturnCode comparison and conversion are coherent", "statement": "ReturnCode values are totally ordered by <, == is equality of codes, !rc holds exactly when rc is not OK; converting any DDS return code yields OK only for OK; every code prints and distinct codes print differently.", "quantifier": "every code and every DDS return code (any integer)", "why_tests_cant": "the DDS code is an open integer type.", "anchors": ["cpp_utils/src/cpp/ReturnCode.cpp"]}
{"id": "C38", "title": "Safe singleton is created once and never replaced", "statement": "In any history of initialize / get_instance calls on SafeInitializableSingleton at most one object is ever built (exactly one if some call may create it), only the first creating call succeeds, and every get after it returns that object.", "quantifier": "every history of calls (each call is atomic under the mutex)", "why_tests_cant": "unbounded histories and interleavings.", "anchors": ["cpp_utils/include/cpp_utils/types/impl/SafeInitializableSingleton.ipp"]}
{"id": "C39", "title": "PausableTimer measures exactly the time spent playing", "statement": "At any moment elapsed() equals the total time since construction or the last reset during which the timer was playing, whatever play/pause/reset/elapsed calls were made.", "quantifier": "every sequence of calls at every sequence of non-decreasing times", "why_tests_cant": "unbounded histories of calls and real instants.", "anchors": ["cpp_utils/src/cpp/time/PausableTimer.cpp", "cpp_utils/src/cpp/time/Timer.cpp"]}
{"id": "C40", "title": "RandomManager features are independent and reproducible", "statement": "seeded_rand(s) depends only on s; the k-th sequence_rand since the last seed(s) (or construction) depends only on s and k; interleaving other features does not change either.", "quantifier": "every history of calls and every generator", "why_tests_cant": "unbounded histories.", "anchors": ["cpp_utils/src/cpp/math/random/RandomManager.cpp", "cpp_utils/src/cpp/math/random/TSafeRandomManager.cpp"]}
{"id": "C41", "title": "Command history navigation never leaves the history", "statement": "get_previous_command and get_next_command return either an added command or the empty string and never access outside the stored history, whatever sequence of calls is made.", "quantifier": "every sequence of add/previous/next calls", "why_tests_cant": "unbounded histories; the index starts at a sentinel that wraps.", "anchors": ["cpp_utils/src/cpp/history/CommandHistoryHandler.cpp"]}
{"id": "C42", "title": "Command history navigates like a cursor", "statement": "After at least one command was added, previous walks towards the oldest command and stays there returning empty, next walks to the newest and then to a blank line; previous directly after an add returns the command just added; next undoes previous.", "quantifier": "every sequence of calls after an add", "why_tests_cant": "unbounded histories.", "anchors": ["cpp_utils/src/cpp/history/CommandHistoryHandler.cpp"]}
{"id": "C43", "title": "The interactive line editor edits at the cursor", "statement": "For every sequence of key presses the cursor stays within the line and the line handed to the callback on Enter is the one obtained by an ideal editor (text before the cursor / text after the cursor) with insert, backspace, delete, left, right, home, end and history recall.", "quantifier": "every key sequence", "why_tests_cant": "unbounded key sequences.", "anchors": ["cpp_utils/src/cpp/event/StdinEventHandler.cpp:stdin_listener_thread_routine_"]}
{"id": "C44", "title": "Reading stops at end of input", "statement": "When the input stream ends, the reader stops consuming input instead of reading for ever.", "quantifier": "every input stream", "why_tests_cant": "non-termination; only visible on streams that end without a newline.", "anchors": ["cpp_utils/src/cpp/event/StdinEventHandler.cpp:stdin_listener_thread_routine_"]}
{"id": "C45", "title": "Quoted arguments are joined", "statement": "CommandReader splits a line at spaces; a phrase enclosed in double quotes becomes one argument with the quotes removed, other words are kept as they are, and at least one (possibly empty) argument is produced so that the command word can be looked up.", "quantifier": "every input line", "why_tests_cant": "unbounded lines; phrase may start with a space.", "anchors": ["cpp_utils/include/cpp_utils/user_interface/impl/CommandReader.ipp:join_quoted_strings", "cpp_utils/include/cpp_utils/user_interface/impl/CommandReader.ipp:read_next_command"]}
{"id": "C46", "title": "EventHandler counts and calls exactly the enabled events", "statement": "In any history the callback is called once, with its arguments, for each event that occurs while a callback is set and never otherwise; the callback called is the one most recently set; event_count() is the number of those events minus decrements (not below 0) since the last reset.", "quantifier": "every history of set/unset/event/reset/decrement calls", "why_tests_cant": "unbounded histories.", "anchors": ["cpp_utils/include/cpp_utils/event/impl/EventHandler.ipp"]}
{"id": "C47", "title": "wait_for_event loses no wake-up", "statement": "With any number of threads and any interleaving, once all notifications are delivered no thread remains asleep in wait_for_event(n) if at least n events are registered or the callback is unset; a call that returns true did so with at least n events registered.", "quantifier": "every number of threads and every interleaving", "why_tests_cant": "schedules cannot be enumerated by tests.", "anchors": ["cpp_utils/include/cpp_utils/event/impl/EventHandler.ipp:wait_for_event", "cpp_utils/include/cpp_utils/event/impl/EventHandler.ipp:event_occurred_", "cpp_utils/include/cpp_utils/event/impl/EventHandler.ipp:unset_callback"]}
{"id": "C48", "title": "unset_callback is a barrier", "statement": "When unset_callback returns, no callback is executing, none will start until a callback is set again, and no thread is left inside wait_for_event that had entered before.", "quantifier": "every number of threads and every interleaving (no re-entrant unset from inside the callback)", "why_tests_cant": "schedules cannot be enumerated by tests.", "anchors": ["cpp_utils/include/cpp_utils/event/impl/EventHandler.ipp:unset_callback", "cpp_utils/include/cpp_utils/event/impl/EventHandler.ipp:awake_all_waiting_threads_nts_"]}
{"id": "C49", "title": "Every received signal triggers its callbacks", "statement": "Each signal delivered while the manager lives is eventually followed by one round of calls of the registered callbacks; rounds never exceed signals.", "quantifier": "every interleaving of signal delivery with the handler thread", "why_tests_cant": "asynchronous signal delivery at every instruction.", "anchors": ["cpp_utils/include/cpp_utils/event/impl/SignalManager.ipp:signal_received_", "cpp_utils/include/cpp_utils/event/impl/SignalManager.ipp:signal_handler_thread_routine_"]}
{"id": "C50", "title": "Signal callbacks are identified uniquely", "statement": "register_callback never returns an id that is currently in use (fewer than 2^32 registrations), unregister_callback removes exactly that callback and throws exactly when the id is not registered.", "quantifier": "every history of register/unregister calls", "why_tests_cant": "unbounded histories; ids wrap.", "anchors": ["cpp_utils/include/cpp_utils/event/impl/SignalManager.ipp:register_callback", "cpp_utils/include/cpp_utils/event/impl/SignalManager.ipp:unregister_callback"]}
{"id": "C51", "title": "A wait reports the true reason", "statement": "wait() returns condition_met only if the predicate held for the value while the handler was enabled, disabled only if the handler was disabled, and timeout only if a positive timeout was given, the handler is enabled and the predicate was false at that moment; a disabled handler never blocks.", "quantifier": "every value history, predicate, timeout and interleaving", "why_tests_cant": "schedules cannot be enumerated by tests.", "anchors": ["cpp_utils/include/cpp_utils/wait/impl/WaitHandler.ipp:blocking_wait_"]}
{"id": "C52", "title": "WaitHandler loses no wake-up", "statement": "With any number of threads and any interleaving of set_value, enable, disable and waits, once pending notifications have been delivered no thread is asleep whose predicate holds for the current value or while the handler is disabled.", "quantifier": "every number of threads and every interleaving", "why_tests_cant": "schedules cannot be enumerated by tests.", "anchors": ["cpp_utils/include/cpp_utils/wait/impl/WaitHandler.ipp", "cpp_utils/src/cpp/wait/IntWaitHandler.cpp", "cpp_utils/src/cpp/wait/BooleanWaitHandler.cpp"]}
{"id": "C53", "title": "blocking_disable drains every waiter", "statement": "When blocking_disable returns the handler is disabled and no thread is inside a wait; it always returns (it cannot be stuck while every waiting thread is asleep). The waiting-thread counter always equals the number of threads inside a wait.", "quantifier": "every number of threads and every interleaving", "why_tests_cant": "termination under all schedules.", "anchors": ["cpp_utils/include/cpp_utils/wait/impl/WaitHandler.ipp:blocking_disable"]}
{"id": "C54", "title": "CounterWaitHandler grants exactly the surplus", "statement": "In any interleaving the counter equals initial value + increments - granted waits, a wait is granted only while the counter exceeds the threshold, so (starting at or above the threshold) the counter never drops below the threshold.", "quantifier": "every number of threads and every interleaving (fewer than 2^32 increments)", "why_tests_cant": "schedules cannot be enumerated by tests.", "anchors": ["cpp_utils/src/cpp/wait/CounterWaitHandler.cpp:wait_and_decrement", "cpp_utils/src/cpp/wait/CounterWaitHandler.cpp:operator ++"]}
{"id": "C55", "title": "CounterWaitHandler loses no wake-up although it notifies one thread at a time", "statement": "Once pending notifications are delivered, no thread is asleep in wait_and_decrement while the counter exceeds the threshold or the handler is disabled.", "quantifier": "every number of threads and every interleaving", "why_tests_cant": "notify_one chains break only under particular schedules.", "anchors": ["cpp_utils/src/cpp/wait/CounterWaitHandler.cpp"]}
{"id": "C56", "title": "wait_threshold_reached / wait_all_consumed wake when the threshold is reached or the handler is disabled", "statement": "A thread in wait_threshold_reached is released when the counter reaches the threshold and when the handler is disabled; blocking_disable and the destructor therefore always finish.", "quantifier": "every number of threads and every interleaving", "why_tests_cant": "needs a schedule with a thread parked on the second condition variable at the moment of disabling.", "anchors": ["cpp_utils/src/cpp/wait/CounterWaitHandler.cpp:wait_threshold_reached", "cpp_utils/include/cpp_utils/wait/impl/WaitHandler.ipp:disable", "cpp_utils/include/cpp_utils/wait/impl/ConsumerWaitHandler.ipp:wait_all_consumed"]}
{"id": "C57", "title": "Consumer queue delivers every value once, in order", "statement": "Values returned by consume are values that were produced, each is returned at most once, and they leave the queue in the order in which they entered it; nothing is lost or duplicated by the double buffering.", "quantifier": "any number of producers and consumers and every interleaving", "why_tests_cant": "schedules cannot be enumerated by tests.", "anchors": ["cpp_utils/include/cpp_utils/wait/impl/DBQueueWaitHandler.ipp", "cpp_utils/include/cpp_utils/wait/impl/ConsumerWaitHandler.ipp", "cpp_utils/include/cpp_utils/queue/DBQueue.hpp"]}
{"id": "C58", "title": "consume never finds the queue empty", "statement": "consume never throws InconsistencyException: whenever a wait is granted there is an element left to take.", "quantifier": "any number of producers and consumers and every interleaving; any constructor arguments", "why_tests_cant": "race between counter and queue content under all schedules.", "anchors": ["cpp_utils/include/cpp_utils/wait/impl/DBQueueWaitHandler.ipp:get_next_value_", "cpp_utils/include/cpp_utils/wait/impl/ConsumerWaitHandler.ipp:consume"]}
{"id": "C59", "title": "DBQueue behaves like a FIFO queue with an explicit hand-over", "statement": "Single-threaded use: contents pushed are seen in order after swap; swap discards what is left in the foreground, front/pop on an empty foreground are undefined, both_empty is true exactly when nothing is stored.", "quantifier": "every sequence of operations", "why_tests_cant": "unbounded histories.", "anchors": ["cpp_utils/include/cpp_utils/queue/DBQueue.hpp"]}
{"id": "C60", "title": "SlotThreadPool executes each emitted task at most once and only registered ones", "statement": "Every execution corresponds to a distinct earlier emit of the same task id, the task run is the one registered under that id, emit of an unregistered id throws and queues nothing, registering an id twice throws and keeps the first task.", "quantifier": "any number of worker and client threads and every interleaving", "why_tests_cant": "schedules cannot be enumerated by tests.", "anchors": ["cpp_utils/src/cpp/thread_pool/pool/SlotThreadPool.cpp:emit", "cpp_utils/src/cpp/thread_pool/pool/SlotThreadPool.cpp:slot", "cpp_utils/src/cpp/thread_pool/pool/SlotThreadPool.cpp:thread_routine_"]}
{"id": "C61", "title": "A thread pool that is disabled and enabled again works", "statement": "After disable() and enable() the pool executes the tasks that are queued (disable does not remove them from the queue).", "quantifier": "every history of enable/disable/emit", "why_tests_cant": "history property; needs a second enabling.", "anchors": ["cpp_utils/src/cpp/thread_pool/pool/SlotThreadPool.cpp:enable", "cpp_utils/src/cpp/thread_pool/pool/SlotThreadPool.cpp:disable"]}
{"id": "C62", "title": "SlotThreadPool::wait_all_consumed waits for the tasks to be executed", "statement": "wait_all_consumed returns condition_met only when every task emitted before the call has finished executing.", "quantifier": "every number of threads and every interleaving", "why_tests_cant": "needs the schedule where the last task has been taken but not run.", "anchors": ["cpp_utils/src/cpp/thread_pool/pool/SlotThreadPool.cpp:wait_all_consumed"]}
{"id": "C63", "title": "SafeDatabase is a linearizable map", "statement": "Every operation (add, modify, add_or_modify, erase, is, at, size) has the effect and result it would have on a plain map, atomically; add never overwrites, modify never inserts, add_or_modify tells which of the two happened, at throws exactly for absent keys.", "quantifier": "every history and every interleaving of operations", "why_tests_cant": "unbounded concurrent histories.", "anchors": ["cpp_utils/include/cpp_utils/collection/database/impl/SafeDatabase.ipp"]}
{"id": "C64", "title": "Iterators of SafeDatabase protect the elements they point to", "statement": "While an iterator returned by begin/end/find exists no element can be erased or modified, so it always denotes an element (or end) of the current contents.", "quantifier": "every interleaving of iterator creation with writers, and copies of iterators", "why_tests_cant": "the window between obtaining the position and taking the lock is a few instructions wide.", "anchors": ["cpp_utils/include/cpp_utils/collection/database/impl/SafeDatabase.ipp:begin", "cpp_utils/include/cpp_utils/collection/database/impl/SafeDatabase.ipp:find", "cpp_utils/include/cpp_utils/collection/database/impl/SafeDatabase.ipp:SafeDatabaseIterator"]}
{"id": "C65", "title": "A pool never lends an element twice", "statement": "Starting from an empty or initialised pool, as long as clients only return what they hold, loan always succeeds, never hands out an element that is currently on loan, and reuses returned elements before allocating; allocated = free + on loan at all times.", "quantifier": "every history of loan/return_loan", "why_tests_cant": "unbounded histories.", "anchors": ["cpp_utils/include/cpp_utils/pool/impl/UnboundedPool.ipp"]}
{"id": "C66", "title": "return_loan detects excess returns", "statement": "return_loan throws when more elements are returned than were lent, i.e. when nothing is on loan; every element is deleted at most once by the destructor.", "quantifier": "every history of loan/return_loan, including erroneous clients", "why_tests_cant": "unbounded histories.", "anchors": ["cpp_utils/include/cpp_utils/pool/impl/UnboundedPool.ipp:return_loan", "cpp_utils/include/cpp_utils/pool/impl/UnboundedPool.ipp:~UnboundedPool"]}
{"id": "C67", "title": "Owned data is destroyed exactly once and never under a guard", "statement": "For every datum given to an OwnerPtr the deleter is called at most once, exactly once by the time its owner is reset, reassigned or destroyed, and never while a GuardedPtr to it is alive.", "quantifier": "every history/interleaving of owner, lessee and guard operations", "why_tests_cant": "needs all interleavings of lock and reset.", "anchors": ["cpp_utils/include/cpp_utils/memory/impl/InternalPtrData.ipp:release_reference_", "cpp_utils/include/cpp_utils/memory/impl/OwnerPtr.ipp", "cpp_utils/include/cpp_utils/memory/impl/LesseePtr.ipp:lock", "cpp_utils/include/cpp_utils/memory/impl/GuardedPtr.ipp"]}
{"id": "C68", "title": "A lessee whose data is gone stays invalid", "statement": "Once the owner released a datum, every lessee of it is false, lock() gives an empty guard and lock_with_exception throws, for ever; while the owner holds it every lessee is valid.", "quantifier": "every history", "why_tests_cant": "unbounded histories.", "anchors": ["cpp_utils/include/cpp_utils/memory/impl/LesseePtr.ipp", "cpp_utils/include/cpp_utils/memory/impl/OwnerPtr.ipp"]}
{"id": "C69", "title": "Accessing data through a lessee keeps it alive during the access", "statement": "lessee->f() and *lessee lock the data while they are used: the data cannot be destroyed before the full expression ends.", "quantifier": "every interleaving of the access with reset of the owner", "why_tests_cant": "the window is between two instructions of an expression.", "anchors": ["cpp_utils/include/cpp_utils/memory/impl/LesseePtr.ipp:operator ->", "cpp_utils/include/cpp_utils/memory/impl/LesseePtr.ipp:operator *"]}
{"id": "C70", "title": "Moving guards and owners neither leaks nor loses data", "statement": "Move-assigning a GuardedPtr releases the lock held by the target; move-assigning an OwnerPtr destroys the target's old datum and keeps the new one, also on self-assignment; the owner can be destroyed once all guards are gone.", "quantifier": "every history of moves", "why_tests_cant": "aliasing histories.", "anchors": ["cpp_utils/include/cpp_utils/memory/impl/GuardedPtr.hpp:operator =", "cpp_utils/include/cpp_utils/memory/impl/OwnerPtr.ipp:operator ="]}
{"id": "C71", "title": "Python WaitHandler.blocking_disable returns", "statement": "blocking_disable of the Python WaitHandler returns once it has disabled the handler and all waiting threads have left.", "quantifier": "every number of waiting threads and every interleaving", "why_tests_cant": "non-termination under a lock.", "anchors": ["py_utils/py_utils/wait/WaitHandler.py:_blocking_disable_nts"]}
{"id": "C72", "title": "Python WaitHandler waits lose no wake-up and report the true reason", "statement": "As C51/C52 for the Python WaitHandler, BooleanWaitHandler and IntWaitHandler.", "quantifier": "every number of threads and every interleaving", "why_tests_cant": "schedules cannot be enumerated by tests.", "anchors": ["py_utils/py_utils/wait/WaitHandler.py", "py_utils/py_utils/wait/IntWaitHandler.py", "py_utils/py_utils/wait/BooleanWaitHandler.py"]}
{"id": "C73", "title": "LogSevereEventHandler and LogChecker count exactly the severe entries", "statement": "The event count of a LogSevereEventHandler is the number of entries at least as severe as its threshold; LogChecker.check_valid() is true exactly when that number lies between expected and max(expected, max).", "quantifier": "every sequence of log entries, thresholds and bounds", "why_tests_cant": "unbounded histories.", "anchors": ["cpp_utils/src/cpp/event/logging/LogSevereEventHandler.cpp:consume_", "cpp_utils/src/cpp/testing/LogChecker.cpp:check_valid"]}
{"id": "C74", "title": "MultipleEventHandler reacts to each child event", "statement": "The event count of a MultipleEventHandler is the number of events of all registered handlers; wherever an event occurs its callback is called once.", "quantifier": "every set of handlers and every history", "why_tests_cant": "unbounded histories.", "anchors": ["cpp_utils/include/cpp_utils/event/impl/MultipleEventHandler.ipp", "cpp_utils/src/cpp/event/MultipleEventHandler.cpp"]}
{"id": "C75", "title": "PeriodicEventHandler stops when told", "statement": "A period of 0 is rejected; unset_callback always returns (the timer thread is woken and joined), after it no event is raised, and the handler can be set again (callbacks that do not set or unset themselves; for those see C95).", "quantifier": "every interleaving of the timer thread with set/unset", "why_tests_cant": "schedules cannot be enumerated by tests.", "anchors": ["cpp_utils/src/cpp/event/PeriodicEventHandler.cpp"]}
{"id": "C76", "title": "Heritable compares by value and shares by copy", "statement": "Two Heritables are equal (or ordered) exactly when the objects they hold are; copies refer to the same object, so a change through one is visible through all copies and through no other Heritable.", "quantifier": "every history of copies, moves and writes", "why_tests_cant": "aliasing histories.", "anchors": ["cpp_utils/include/cpp_utils/memory/impl/Heritable.ipp"]}
{"id": "C77", "title": "Dates convert to timestamps and back", "statement": "date_to_timestamp(y,m,d,h,mi,s) of a valid UTC date is the number of seconds since 1970-01-01 of that date, is strictly monotone in the date, and printing it gives the same date back; every representable date can be parsed from its text.", "quantifier": "every valid date", "why_tests_cant": "unbounded calendar; leap-year rules; -1 sentinel; 64-bit nanosecond range.", "anchors": ["cpp_utils/src/cpp/time/time_utils.cpp:date_to_timestamp", "cpp_utils/src/cpp/time/time_utils.cpp:string_to_timestamp", "cpp_utils/src/cpp/time/time_utils.cpp:timestamp_to_string"]}
{"id": "C78", "title": "History recall works whatever the output device", "statement": "Recalling a command with the arrow or page keys never faults, also when the output has no width (a pipe, a terminal of size 0).", "quantifier": "every key sequence and every terminal width", "why_tests_cant": "needs an output device without width.", "anchors": ["cpp_utils/src/cpp/event/StdinEventHandler.cpp:compute_lines_needed", "cpp_utils/src/cpp/event/StdinEventHandler.cpp:stdin_listener_thread_routine_"]}
{"id": "C79", "title": "wait_for_event returns false only if the handler was disabled", "statement": "wait_for_event(n) returns true if it exits due to the number of events and false only for another reason (the handler is disabled), as its documentation says: a call that returns false while the callback stays set throughout cannot exist.", "quantifier": "every number of threads and every interleaving, including concurrent resets and decrements of the count", "why_tests_cant": "the window is between two instructions at the end of the call.", "anchors": ["cpp_utils/include/cpp_utils/event/impl/EventHandler.ipp:wait_for_event", "cpp_utils/include/cpp_utils/event/EventHandler.hpp:wait_for_event"]}
{"id": "C80", "title": "Destroying a SignalManager stops its thread", "statement": "The destructor of the signal manager returns whatever the handler thread is doing (its request to stop is never lost), and once it has returned no callback is called any more, even if signals still arrive.", "quantifier": "every number of threads and every interleaving, any number of signals", "why_tests_cant": "the handler thread may be at any instruction when the flag is set.", "anchors": ["cpp_utils/include/cpp_utils/event/impl/SignalManager.ipp:~SignalManager", "cpp_utils/include/cpp_utils/event/impl/SignalManager.ipp:signal_handler_thread_routine_"]}
{"id": "C81", "title": "A disabled SlotThreadPool is quiet", "statement": "When disable() has returned, and until enable() is called again, the pool owns no thread, no thread of it is anywhere in its routine, every task that was started has finished, and no task starts.", "quantifier": "any number of client threads (enable and disable called by one of them) and every interleaving", "why_tests_cant": "schedules cannot be enumerated by tests.", "anchors": ["cpp_utils/src/cpp/thread_pool/pool/SlotThreadPool.cpp:disable", "cpp_utils/src/cpp/thread_pool/pool/SlotThreadPool.cpp:thread_routine_"]}
{"id": "C82", "title": "SlotThreadPool never uses more threads than it was given", "statement": "A pool built for n threads never executes more than n tasks at the same time, and owns exactly n threads while it is enabled and no enable/disable is in progress.", "quantifier": "any number of client threads (enable and disable called by one of them), any history of enabling and disabling, every interleaving", "why_tests_cant": "schedules and histories cannot be enumerated by tests.", "anchors": ["cpp_utils/src/cpp/thread_pool/pool/SlotThreadPool.cpp:enable", "cpp_utils/src/cpp/thread_pool/pool/SlotThreadPool.cpp:disable"]}
{"id": "C83", "title": "Everything produced is eventually consumed", "statement": "While a DBQueueWaitHandler stays enabled and some thread is inside consume() again and again, every value stored is eventually returned by consume(), in the order stored.", "quantifier": "any number of producers and consumers, every fair schedule (fewer than 2^32 values stored at a time)", "why_tests_cant": "liveness: needs infinite executions and all schedules.", "anchors": ["cpp_utils/include/cpp_utils/wait/impl/DBQueueWaitHandler.ipp", "cpp_utils/include/cpp_utils/wait/impl/ConsumerWaitHandler.ipp:consume", "cpp_utils/src/cpp/wait/CounterWaitHandler.cpp:wait_and_decrement"]}
{"id": "C84", "title": "Every accepted emit is eventually executed", "statement": "Provided tasks return, in a SlotThreadPool that has a thread and is not disabled, every emit that was accepted is followed by a complete execution of its task.", "quantifier": "any number of worker and client threads, every fair schedule (fewer than 2^32 ids queued at a time)", "why_tests_cant": "liveness: needs infinite executions and all schedules.", "anchors": ["cpp_utils/src/cpp/thread_pool/pool/SlotThreadPool.cpp:emit", "cpp_utils/src/cpp/thread_pool/pool/SlotThreadPool.cpp:thread_routine_"]}
{"id": "C85", "title": "disable() of a SlotThreadPool returns", "statement": "Provided tasks end, disable() and the destructor return, whatever the threads of the pool and other clients are doing when it is called.", "quantifier": "any number of worker and client threads, every fair schedule", "why_tests_cant": "liveness: needs all schedules.", "anchors": ["cpp_utils/src/cpp/thread_pool/pool/SlotThreadPool.cpp:disable", "cpp_utils/src/cpp/thread_pool/pool/SlotThreadPool.cpp:~SlotThreadPool"]}
{"id": "C86", "title": "SafeDatabase::find returns", "statement": "find(key) returns an iterator, whatever other threads do, with every conforming shared mutex (also one that makes new readers wait while a writer waits).", "quantifier": "any number of threads, every fair schedule, both policies of the mutex", "why_tests_cant": "liveness; the deadlock needs a writer to arrive between two instructions, and a mutex policy the test machine may not have.", "anchors": ["cpp_utils/include/cpp_utils/collection/database/impl/SafeDatabase.ipp:find", "cpp_utils/include/cpp_utils/collection/database/impl/SafeDatabase.ipp:SafeDatabaseIterator"]}
{"id": "C87", "title": "Calls of SafeDatabase return", "statement": "Calls other than find return: with a mutex that lets readers in while writers wait, every call that does not write; with a mutex that lets waiting writers go first, every call, writers included, provided clients destroy their iterators (again and again there is a moment without iterators).", "quantifier": "any number of threads, every fair schedule", "why_tests_cant": "liveness: needs infinite executions and all schedules.", "anchors": ["cpp_utils/include/cpp_utils/collection/database/impl/SafeDatabase.ipp"]}
{"id": "C88", "title": "A pool allocates no more than its clients need", "statement": "A pool allocates initial_size elements, and beyond these never more than the greatest number of elements that were on loan at once plus batch_size - 1; a batch_size of 0 is refused.", "quantifier": "every history of loan/return_loan, every configuration", "why_tests_cant": "unbounded histories.", "anchors": ["cpp_utils/include/cpp_utils/pool/impl/UnboundedPool.ipp:loan", "cpp_utils/include/cpp_utils/pool/impl/UnboundedPool.ipp:augment_free_values_"]}
{"id": "C89", "title": "A pool deletes its elements with the function meant for it", "statement": "The elements of a pool whose class overrides delete_element_ are deleted by that override when the pool is destroyed.", "quantifier": "every derived pool", "why_tests_cant": "the base destructor cannot be observed without a derived class that counts its own deletions.", "anchors": ["cpp_utils/include/cpp_utils/pool/impl/UnboundedPool.ipp:~UnboundedPool", "cpp_utils/include/cpp_utils/pool/impl/IPool.ipp:delete_element_"]}
{"id": "C90", "title": "Checking a lessee is safe while the owner resets", "statement": "A thread may check a LesseePtr (operator bool), lock it or use a guard while another thread resets or destroys the owner: the reference that is checked is never read while it is written.", "quantifier": "any number of threads and every interleaving", "why_tests_cant": "data races are undefined behaviour that tests rarely show.", "anchors": ["cpp_utils/include/cpp_utils/memory/impl/LesseePtr.ipp:operator bool", "cpp_utils/include/cpp_utils/memory/impl/InternalPtrData.ipp:release_reference_"]}
{"id": "C91", "title": "disable() of the Python WaitHandler releases every waiting thread", "statement": "Every thread that is waiting when disable() is called returns from its wait, also if the handler is enabled again soon afterwards (the code relies on it: enabling does not notify because \"if it was disabled none thread would be waiting\").", "quantifier": "every number of threads and every fair schedule", "why_tests_cant": "the thread that calls enable must overtake the woken threads.", "anchors": ["py_utils/py_utils/wait/WaitHandler.py:_disable_nts", "py_utils/py_utils/wait/WaitHandler.py:_enable_nts"]}
{"id": "C92", "title": "An exception in the predicate of a wait leaves the Python WaitHandler usable", "statement": "If the predicate given to wait() raises, the exception reaches the caller and the handler is as if that wait had ended: the lock is free, value and state are unchanged, and the thread no longer counts as waiting.", "quantifier": "every predicate, number of threads and interleaving", "why_tests_cant": "the damage only shows in a later blocking_disable of another thread.", "anchors": ["py_utils/py_utils/wait/WaitHandler.py:wait"]}
{"id": "C93", "title": "Destroying a LogEventHandler while entries are logged is safe", "statement": "While the destructor of a LogEventHandler runs, entries may still be logged by other threads: no entry is ever handed to a part of the handler that has been destroyed, and once the destructor has returned the handler is not used any more.", "quantifier": "every number of threads logging and every interleaving with the destructor", "why_tests_cant": "the window is between the destruction of two members.", "anchors": ["cpp_utils/src/cpp/event/logging/LogEventHandler.cpp:~LogEventHandler", "cpp_utils/include/cpp_utils/event/LogEventHandler.hpp", "cpp_utils/src/cpp/event/logging/LogConsumerConnection.cpp:Consume"]}
{"id": "C94", "title": "A Heritable refers to an object of its class", "statement": "A Heritable<T> represents an object of class T or of any child of it (its documentation): whatever Heritables it was made from, the object it refers to is a T, so that dyn_cast to T or to a base of T succeeds.", "quantifier": "every class hierarchy and every history of conversions, copies, moves and assignments", "why_tests_cant": "unbounded histories and hierarchies.", "anchors": ["cpp_utils/include/cpp_utils/memory/impl/Heritable.ipp", "cpp_utils/include/cpp_utils/memory/Heritable.hpp"]}
{"id": "C95", "title": "A callback of a PeriodicEventHandler may set or unset itself", "statement": "A callback of a PeriodicEventHandler can call set_callback or unset_callback of its own handler (its mutexes are recursive for that purpose): the call returns, whether the callback was called by the timer or by simulate_event_occurred, and whatever other threads do.", "quantifier": "any number of threads, every fair schedule", "why_tests_cant": "deadlocks show only in particular schedules, and a test of the self-deadlock would hang.", "anchors": ["cpp_utils/src/cpp/event/PeriodicEventHandler.cpp:period_thread_routine_", "cpp_utils/src/cpp/event/PeriodicEventHandler.cpp:stop_period_thread_nts_", "cpp_utils/include/cpp_utils/event/impl/EventHandler.ipp:set_callback", "cpp_utils/include/cpp_utils/event/impl/EventHandler.ipp:unset_callback"]}
{"id": "C96", "title": "A PeriodicEventHandler raises events periodically", "statement": "While a callback stays set it is called again and again; between two calls by the timer a whole period passes (a notification or a spurious wake-up never raises an event); at most one call is in progress at a time, and calls happen only while the callback is set.", "quantifier": "any number of threads setting, unsetting and simulating events, every fair schedule", "why_tests_cant": "schedules and spurious wake-ups cannot be enumerated by tests.", "anchors": ["cpp_utils/src/cpp/event/PeriodicEventHandler.cpp:period_thread_routine_", "cpp_utils/include/cpp_utils/event/impl/EventHandler.ipp:event_occurred_"]}
{"id": "C97", "title": "string_to_timestamp reads the date that is written or throws", "statement": "A text that is not a complete, existing date in the given format is refused with an exception; it is never read as some other date.", "quantifier": "every text in the default format", "why_tests_cant": "unbounded texts; how the library parser treats short texts, trailing text and impossible days is not visible in the code.", "anchors": ["cpp_utils/src/cpp/time/time_utils.cpp:string_to_timestamp"]}
{"id": "C98", "title": "time_to_timestamp is the given time of the current day", "statement": "time_to_timestamp(h,m,s) is the timestamp with that time of day on the UTC day the clock shows when it is called.", "quantifier": "every clock value from 1970 on and every time of day", "why_tests_cant": "depends on the clock; unbounded calendar.", "anchors": ["cpp_utils/src/cpp/time/time_utils.cpp:time_to_timestamp"]}
{"id": "C99", "title": "normalize gives the nearest time the platform accepts", "statement": "normalize(t) lies in the range of the platform, no value of that range is nearer to t, and values in the range are unchanged.", "quantifier": "every time and every platform", "why_tests_cant": "64-bit domain; three platforms of which a test sees one.", "anchors": ["cpp_utils/src/cpp/time/time_utils.cpp:normalize"]}
{"id": "C100", "title": "timestamp_to_string shows the second in which the timestamp lies", "statement": "The text of a timestamp is the date and time of the second that contains it (fractions of a second are dropped, not rounded).", "quantifier": "every timestamp", "why_tests_cant": "64-bit domain.", "anchors": ["cpp_utils/src/cpp/time/time_utils.cpp:timestamp_to_string"]}
{"id": "C101", "title": "from_bytes texts can be read back by to_bytes", "statement": "to_bytes(from_bytes(b)) returns b for every b below 1000 and a count within 2% of the unit printed for every other b.", "quantifier": "every 64-bit byte count", "why_tests_cant": "2^64 counts; the two functions have different overflow guards and both round in double precision.", "anchors": ["cpp_utils/src/cpp/utils.cpp:to_bytes", "cpp_utils/src/cpp/utils.cpp:from_bytes"]}
{"id": "C102", "title": "The enumeration generator fills in its template", "statement": "The header that enumeration_builder.py writes is its template with every placeholder replaced, wherever it stands, by the year, file name, command, namespaces, name and values of this run, and no placeholder is left.", "quantifier": "every command line", "why_tests_cant": "texts are unbounded; a test sees a few file names and values.", "anchors": ["dev_utils/src/automatic_code_generator/cpp/enumeration_builder/enumeration_builder.py:generate_file_text", "dev_utils/src/automatic_code_generator/cpp/enumeration_builder/enumeration_builder.py:replace_in_text", "dev_utils/src/automatic_code_generator/cpp/enumeration_builder/enumeration_builder.py:TEMPLATE_TEXT"]}
{"id": "C103", "title": "The generated header declares exactly the values given", "statement": "For a list of names separated by \";\" or \",\" (blanks around them do not matter) the generated header declares an enumeration whose enumerators are these names in this order, and an array with exactly one name per enumerator.", "quantifier": "every list of identifiers and every way to space and separate it", "why_tests_cant": "unbounded lists; what a C++ compiler makes of the text is not visible in a test of the script.", "anchors": ["dev_utils/src/automatic_code_generator/cpp/enumeration_builder/enumeration_builder.py:parse_values", "dev_utils/src/automatic_code_generator/cpp/enumeration_builder/enumeration_builder.py:generate_file_text", "dev_utils/src/automatic_code_generator/cpp/enumeration_builder/enumeration_builder.py:main"]}
{"id": "C104", "title": "A generated enumeration behaves like the one of the macro", "statement": "In the generated header to_string and from_string are inverse to each other, from_string throws for every other text, and both agree with the enumeration that ENUMERATION_BUILDER makes from the same names, the class of the exception excepted (README: \"generates the code that would be generated by macro ENUMERATION_BUILDER\").", "quantifier": "every list of distinct names and every text", "why_tests_cant": "unbounded lists and texts.", "anchors": ["dev_utils/src/automatic_code_generator/cpp/enumeration_builder/enumeration_builder.py:TEMPLATE_TEXT", "cpp_utils/include/cpp_utils/macros/custom_enumeration.hpp"]}
{"id": "C105", "title": "The text of a container can be read back", "statement": "container_to_stream appends the elements between braces, with the separator between neighbours only; different containers have different texts, and split_string gives the elements back.", "quantifier": "every container, separator and previous content of the stream", "why_tests_cant": "unbounded containers.", "anchors": ["cpp_utils/include/cpp_utils/impl/utils.ipp:container_to_stream"]}
{"id": "C106", "title": "Keys and shared copies of a container are complete", "statement": "get_keys returns each key of the map exactly once and nothing else; convert_set_to_shared makes one new object per element, equal to it, and leaves other objects alone, so that two sets are equal exactly when are_set_of_ptr_equal holds of their conversions.", "quantifier": "every map, every pair of sets and every heap", "why_tests_cant": "unbounded containers and histories.", "anchors": ["cpp_utils/include/cpp_utils/impl/utils.ipp:get_keys", "cpp_utils/include/cpp_utils/impl/utils.ipp:convert_set_to_shared"]}
{"id": "C107", "title": "A SignalEventHandler is registered exactly while its callback is set", "statement": "While no call that sets or unsets its callback is in progress, the signal manager has exactly one callback for a SignalEventHandler whose callback is set and none for another one; unsetting never ends the process; and after unset_callback or the destructor has returned (and until set_callback is called) the signal thread does not use the handler and the callback is not called.", "quantifier": "any number of handlers and threads, callbacks that leave, change or unset the callback of their own handler, every interleaving with arriving signals (fewer than 2^32 registrations)", "why_tests_cant": "the signal thread may be at any instruction when a handler is destroyed.", "anchors": ["cpp_utils/include/cpp_utils/event/impl/SignalEventHandler.ipp:callback_set_nts_", "cpp_utils/include/cpp_utils/event/impl/SignalEventHandler.ipp:callback_unset_nts_", "cpp_utils/include/cpp_utils/event/impl/SignalEventHandler.ipp:~SignalEventHandler", "cpp_utils/include/cpp_utils/event/impl/SignalManager.ipp:unregister_callback"]}
{"id": "C108", "title": "Calls of a SignalEventHandler return", "statement": "set_callback, unset_callback, simulate_event_occurred and the destructor of a SignalEventHandler return, however many signals arrive, also when they are called by the callback itself.", "quantifier": "any number of handlers and threads, every fair schedule", "why_tests_cant": "deadlocks show only in particular schedules, and a test of a deadlock hangs.", "anchors": ["cpp_utils/include/cpp_utils/event/impl/SignalEventHandler.ipp:callback_set_nts_", "cpp_utils/include/cpp_utils/event/impl/SignalEventHandler.ipp:callback_unset_nts_", "cpp_utils/include/cpp_utils/event/impl/SignalManager.ipp:signal_handler_routine_", "cpp_utils/include/cpp_utils/event/impl/EventHandler.ipp:set_callback", "cpp_utils/include/cpp_utils/event/impl/EventHandler.ipp:unset_callback"]}
{"id": "C109", "title": "Each signal round calls each callback once", "statement": "When the signal thread handles a signal it calls the callback of a SignalEventHandler that is set exactly once, whatever other threads do with other handlers meanwhile and even while the same handler is given another callback.", "quantifier": "any number of handlers and threads, every interleaving", "why_tests_cant": "schedules cannot be enumerated by tests.", "anchors": ["cpp_utils/include/cpp_utils/event/impl/SignalEventHandler.ipp:signal_received_callback_", "cpp_utils/include/cpp_utils/event/impl/SignalManager.ipp:signal_handler_routine_"]}
{"id": "C110", "title": "A FileWatcherHandler reports exactly the modifications of its file", "statement": "The callback of a FileWatcherHandler is called with the names of the modified files in the order in which the kernel reports the modifications, once for each; for a single file never for another one in the same directory; nothing is invented, repeated or reordered, and once everything has been read and passed on, all of it has been reported.", "quantifier": "every sequence of file system events, any number of threads and every interleaving of the two threads of the watch with set/unset, with callbacks that do not use the handler and with callbacks that set another one", "why_tests_cant": "schedules, and how many events one read returns, cannot be enumerated by tests.", "anchors": ["cpp_utils/src/cpp/event/FileWatcherHandler.cpp:start_filewatcher_nts_", "thirdparty/filewatch/FileWatch.hpp:monitor_directory", "thirdparty/filewatch/FileWatch.hpp:callback_thread"]}
{"id": "C111", "title": "Every modification is eventually reported", "statement": "While the callback stays set and the path is watched, the callback is eventually called for every modification the kernel reports.", "quantifier": "any number of threads, every sequence of file system events, every fair schedule", "why_tests_cant": "liveness: a lost wake-up between the two threads of the watch shows only in particular schedules.", "anchors": ["cpp_utils/src/cpp/event/FileWatcherHandler.cpp:start_filewatcher_nts_", "thirdparty/filewatch/FileWatch.hpp:monitor_directory", "thirdparty/filewatch/FileWatch.hpp:callback_thread"]}
{"id": "C112", "title": "Calls of a FileWatcherHandler return", "statement": "set_callback, unset_callback, simulate_event_occurred and the destructor of a FileWatcherHandler return, whatever happens to the watched file or directory, also when they are called by the callback itself.", "quantifier": "any number of threads, every sequence of file system events, every fair schedule", "why_tests_cant": "deadlocks show only in particular schedules, and a test of a deadlock hangs.", "anchors": ["cpp_utils/src/cpp/event/FileWatcherHandler.cpp:stop_filewatcher_nts_", "thirdparty/filewatch/FileWatch.hpp:destroy", "thirdparty/filewatch/FileWatch.hpp:monitor_directory", "thirdparty/filewatch/FileWatch.hpp:callback_thread", "cpp_utils/include/cpp_utils/event/impl/EventHandler.ipp:unset_callback"]}
{"id": "C113", "title": "An unset FileWatcherHandler is quiet", "statement": "After unset_callback has returned, and until set_callback is called, the handler has no thread, its callback is not running and is not called, whatever happens to the file.", "quantifier": "any number of threads, every interleaving and every sequence of file system events", "why_tests_cant": "schedules cannot be enumerated by tests.", "anchors": ["cpp_utils/src/cpp/event/FileWatcherHandler.cpp:stop_filewatcher_nts_", "thirdparty/filewatch/FileWatch.hpp:destroy", "cpp_utils/include/cpp_utils/event/impl/EventHandler.ipp:unset_callback"]}
{"id": "C114", "title": "A FileWatcherHandler whose callback is set is watching", "statement": "When set_callback (or the constructor with a callback) has returned, the path is being watched; if it cannot be watched the caller is told.", "quantifier": "every state of the file system when the callback is set, and every history afterwards", "why_tests_cant": "needs a path that cannot be watched at one moment, and all later histories.", "anchors": ["cpp_utils/src/cpp/event/FileWatcherHandler.cpp:start_filewatcher_nts_", "cpp_utils/src/cpp/event/FileWatcherHandler.cpp:callback_set_nts_", "thirdparty/filewatch/FileWatch.hpp:get_directory"]}
{"id": "C115", "title": "FileWatch reads paths and kernel events correctly", "statement": "For a path of a file its directory is watched and exactly the events of that file count; the loop over the buffer that the kernel has filled finds exactly the events written, with their names and kinds, and never reads beyond them.", "quantifier": "every path, every sequence of events with names of any length and padding", "why_tests_cant": "unbounded paths, names and buffers.", "anchors": ["thirdparty/filewatch/FileWatch.hpp:split_directory_and_file", "thirdparty/filewatch/FileWatch.hpp:get_directory", "thirdparty/filewatch/FileWatch.hpp:pass_filter", "thirdparty/filewatch/FileWatch.hpp:monitor_directory"]}
{"id": "C116", "title": "The level set last decides which Python messages are written", "statement": "After set_log_level(L) or activate_debug() a message given to the Python logger is written if and only if its level is at least L (and not disabled for the whole process), until the level is changed again.", "quantifier": "every sequence of calls, every level and message", "why_tests_cant": "which messages were logged before matters; sequences cannot be enumerated.", "anchors": ["py_utils/py_utils/logging/log_utils.py:set_log_level", "py_utils/py_utils/logging/log_utils.py:activate_debug"]}
{"id": "C117", "title": "A Python message is written once, in the format set last", "statement": "A message given to the Python logger is written exactly once, in the format given to set_format last (or the default one), if it is written at all.", "quantifier": "every sequence of calls, every format, level and message", "why_tests_cant": "unbounded sequences of calls.", "anchors": ["py_utils/py_utils/logging/log_utils.py:set_format", "py_utils/py_utils/logging/log_utils.py:__init__"]}
{"id": "C118", "title": "Decorating a function for debugging changes nothing but the log", "statement": "A function decorated with debug_function_decorator returns or raises what the function does, with the same effects, is called exactly once, and has the same name; while debug messages are written there is one line with name and arguments before the call and one after its return.", "quantifier": "every function, all arguments and every state", "why_tests_cant": "functions and arguments cannot be enumerated.", "anchors": ["py_utils/py_utils/debugging/debug_utils.py:debug_function_decorator"]}
{"id": "C119", "title": "Introspection of an object lists its methods and changes nothing", "statement": "debug_object_introspection writes the class and the names of exactly the callable attributes of the object, in order, and does not raise.", "quantifier": "every object", "why_tests_cant": "objects cannot be enumerated.", "anchors": ["py_utils/py_utils/debugging/debug_utils.py:debug_object_introspection"]}
{"id": "C120", "title": "The Python timer measures the time since its last reset", "statement": "elapsed() of the Python Timer is the time since the last reset (or creation), never negative and never smaller than before without a reset in between; until 2038 it is exact as far as the clock is.", "quantifier": "every sequence of resets and every time, as doubles", "why_tests_cant": "rounding and clock changes over all times cannot be sampled.", "anchors": ["py_utils/py_utils/time/Timer.py:Timer"]}
{"id": "C121", "title": "match_pattern decides wildcard matching", "statement": "match_pattern(pattern, text) is true if and only if the text can be cut into pieces, one for each part of the pattern: any text for \"*\", any one character for \"?\", one of the characters for \"[abc]\" or \"[a-z]\", any other for \"[!abc]\", and the character itself otherwise, backslashes included.", "quantifier": "every pattern built from these parts and every text", "why_tests_cant": "unbounded patterns and texts.", "anchors": ["cpp_utils/src/cpp/utils.cpp:match_pattern"]}
{"id": "C122", "title": "Task ids are unique", "statement": "No two calls of new_unique_task_id in a process return the same id, whichever threads make them.", "quantifier": "any number of calls and threads, every order", "why_tests_cant": "ids repeat only after 2^32 calls; orders cannot be enumerated.", "anchors": ["cpp_utils/src/cpp/thread_pool/task/TaskId.cpp:new_unique_task_id"]}
{"id": "C123", "title": "Local times can be read back", "statement": "With local_time set, timestamp_to_string shows the local date and time of the timestamp, and string_to_timestamp with the same format, if it shows the whole date, gives the timestamp back without its fraction of a second.", "quantifier": "every time zone (any change of its offset), every timestamp, every complete format", "why_tests_cant": "zones, timestamps and formats cannot be enumerated.", "anchors": ["cpp_utils/src/cpp/time/time_utils.cpp:timestamp_to_string", "cpp_utils/src/cpp/time/time_utils.cpp:string_to_timestamp"]}
{"id": "C124", "title": "What a command line says is what the parser reports", "statement": "For any command line written from plain arguments, groups of short options and long options of the table, each with an argument attached, separate or none as its check function allows, and optionally \"--\" and further arguments, the parser reports no error, exactly these options with these arguments in this order, and exactly the other arguments, in order, as non-option arguments.", "quantifier": "every table, every check function, every such command line of any length, gnu or POSIX", "why_tests_cant": "tables, command lines and check functions cannot be enumerated.", "anchors": ["thirdparty/optionparser/optionparser.h:workhorse", "thirdparty/optionparser/optionparser.h:parse", "thirdparty/optionparser/optionparser.h:finished"]}
{"id": "C125", "title": "Parsing reorders arguments but loses none", "statement": "After parsing, the argument vector has the same arguments as before: first those used for options, then the others, both in their original order; without gnu it is unchanged; nonOptions() shows the others; every argument used has the form of an option or is the argument of one; and after success an argument left over in gnu mode that has the form of an option was behind \"--\".", "quantifier": "every argument vector, table and check function", "why_tests_cant": "unbounded vectors and arbitrary check functions.", "anchors": ["thirdparty/optionparser/optionparser.h:workhorse", "thirdparty/optionparser/optionparser.h:shift", "thirdparty/optionparser/optionparser.h:finished"]}
{"id": "C126", "title": "options[] and buffer[] hold all options, in order", "statement": "After parsing any number of argument vectors into the same arrays, buffer[] has all options in the order of the vectors (as many as bufmax allows) and optionsCount() is their number; for every index, options[index] begins the list of exactly the options with that index, in that order: next() and prev() visit them, first(), last() and count() are right on each of them; options[index] is null and counts 0 for an index that did not occur.", "quantifier": "every number of calls, every table, vector and bufmax", "why_tests_cant": "pointer structures of unbounded size.", "anchors": ["thirdparty/optionparser/optionparser.h:perform", "thirdparty/optionparser/optionparser.h:append", "thirdparty/optionparser/optionparser.h:count", "thirdparty/optionparser/optionparser.h:StoreOptionAction"]}
{"id": "C127", "title": "Arrays of the sizes given by Stats suffice", "statement": "If a program calls Stats::add for its argument vectors and then Parser::parse in the same way with arrays of options_max and buffer_max elements, no element outside of the arrays is accessed, and exactly the counted options are found.", "quantifier": "every number of calls, every table, vector and check function", "why_tests_cant": "a write beyond an array need not be noticed by a test, and vectors cannot be enumerated.", "anchors": ["thirdparty/optionparser/optionparser.h:Stats::add", "thirdparty/optionparser/optionparser.h:workhorse", "thirdparty/optionparser/optionparser.h:perform"]}
{"id": "C128", "title": "Long options mean what they name", "statement": "\"--name\" or \"--name=...\" is taken for the first option of the table with this long name; if there is none and abbreviations are allowed, for the only one whose name begins with it, if it is at least min_abbr_len long; otherwise for the entry for unknown options, if there is one; and for nothing else.", "quantifier": "every table, every text and every min_abbr_len", "why_tests_cant": "tables and names cannot be enumerated.", "anchors": ["thirdparty/optionparser/optionparser.h:workhorse", "thirdparty/optionparser/optionparser.h:streq", "thirdparty/optionparser/optionparser.h:streqabbr"]}
{"id": "C129", "title": "The version of a module is the one of its VERSION file", "statement": "After configure_project, MODULE_VERSION_MAJOR, _MINOR and _PATCH are the numbers a VERSION file of the documented form gives, MODULE_VERSION is the three with points between and MODULE_VERSION_STRING is that with a v before it; a version the settings give is kept.", "quantifier": "every VERSION file of the documented form, every three numbers and every state of the variables and of the cache", "why_tests_cant": "files and variables cannot be enumerated; the tests do not run the macros.", "anchors": ["cmake_utils/cmake/project/read_version.cmake:34-61", "cmake_utils/cmake/project/configure_project.cmake:62-69"]}
{"id": "C130", "title": "CMake options: given values are kept, the others get the documented default", "statement": "configure_cmake_options leaves every option that is given (by -D or as a variable) as it is; an option that is not given has the documented default afterwards: the test options follow BUILD_TESTS, BUILD_DOCS follows them, CMAKE_BUILD_TYPE is Release, LOG_INFO is ON for a Debug build and OFF otherwise.", "quantifier": "every state of the variables and of the cache", "why_tests_cant": "combinations of options, kinds of variables and repeated configurations are not tried by tests.", "anchors": ["cmake_utils/cmake/project/cmake_options.cmake:44-112"]}
{"id": "C131", "title": "Project settings: given values are kept, the others get the documented default", "statement": "load_project_settings keeps each setting of the settings file and gives each missing one the default of the README; it fails exactly when MODULE_NAME is missing; a second call changes nothing.", "quantifier": "every state of the variables and of the cache", "why_tests_cant": "settings cannot be enumerated.", "anchors": ["cmake_utils/cmake/project/load_project_settings.cmake:59-152", "cmake_utils/README.md:56-94"]}
{"id": "C132", "title": "Each needed package is looked for, with the least version asked for", "statement": "find_external_projects calls find_package for each package of MODULE_FIND_PACKAGES, once and in order, with the version in <package>_MINIMUM_VERSION if there is one.", "quantifier": "every list of packages and every state of the variables", "why_tests_cant": "lists and versions cannot be enumerated.", "anchors": ["cmake_utils/cmake/cpp_common/find_external.cmake:28-50"]}
{"id": "C133", "title": "Files are installed in the directories given or documented", "statement": "set_installation_paths keeps the directories that are given; those that are not are bin/, include/, lib/, share/ and, for the licence, share/ with the name of the module (the current directory on Windows); the short names have the same values.", "quantifier": "every state of the variables and of the cache, both platforms", "why_tests_cant": "combinations of variables, cache and several modules in one build are not tried.", "anchors": ["cmake_utils/cmake/project/installation_paths.cmake:27-69"]}
{"id": "C134", "title": "Tests get the labels of the files that list them", "statement": "A test has a label set with set_test_label_file if and only if the file of that label lists the test, in the order of the calls, whichever directory makes the calls.", "quantifier": "every number of calls, directories, files and tests", "why_tests_cant": "files, labels and directories cannot be enumerated; the tests do not run the macros.", "anchors": ["cmake_utils/cmake/test/test_labels.cmake:22-78"]}
{"id": "C135", "title": "ctest reports the tests that are listed", "statement": "An entry that add_unittest_executable makes for a test case runs exactly the tests of that case (all instances of it, if it has parameters) and passes if and only if they exist and pass; without a list one entry runs everything.", "quantifier": "every suite, every list of test cases and every set of tests of the executable", "why_tests_cant": "names cannot be enumerated, and a test that never runs cannot fail.", "anchors": ["cmake_utils/cmake/test/test_target.cmake:28-110"]}
{"id": "C136", "title": "All sources are compiled", "statement": "compile_library compiles exactly the files with the endings of C and C++ below the source directory, at any depth, or exactly the given ones; all_library_sources gives a test the sources and headers of the library.", "quantifier": "every tree of files", "why_tests_cant": "trees cannot be enumerated.", "anchors": ["cmake_utils/cmake/compilation/compile_library.cmake:42-71", "cmake_utils/cmake/test/test_utils.cmake:19-38"]}
{"id": "C137", "title": "Instrumentation options give the compilers their flags", "statement": "After configure_project_cpp the flags of each compiler are those given before, followed by exactly the flags that CODE_COVERAGE, TSAN_BUILD and ASAN_BUILD stand for with that compiler, if they are on; it stops when an option is on for another compiler or when both sanitizers are on.", "quantifier": "every state of the variables and of the cache, every compiler", "why_tests_cant": "combinations of options, compilers and given flags are not tried.", "anchors": ["cmake_utils/cmake/cpp_common/configure_project_cpp.cmake:59-77", "cmake_utils/cmake/cpp_common/asan.cmake:20-42", "cmake_utils/cmake/cpp_common/tsan.cmake:20-42", "cmake_utils/cmake/cpp_common/code_coverage.cmake:20-43"]}
{"id": "C138", "title": "The version of C++ asked for is used", "statement": "If MODULE_CPP_VERSION asks for C++ 11, 14, 17 or 20 (with or without C++ before the number) and the compiler supports it, configure_project_cpp sets CMAKE_CXX_STANDARD to it; it stops if the compiler does not, or for another version; without a value nothing is forced.", "quantifier": "every state of the variables and of the cache, every compiler", "why_tests_cant": "compilers and values cannot be enumerated.", "anchors": ["cmake_utils/cmake/cpp_common/force_cpp.cmake:23-115", "cmake_utils/README.md:95"]}
{"id": "C139", "title": "Build type and kind of libraries: given values are kept", "statement": "configure_project_cpp keeps a given CMAKE_BUILD_TYPE and BUILD_SHARED_LIBS, at the first configuration and at every later one; otherwise the build type is Release and libraries are shared.", "quantifier": "every state of the variables and of the cache", "why_tests_cant": "kinds of variables and repeated configurations are not tried by tests.", "anchors": ["cmake_utils/cmake/cpp_common/cmake_build_type.cmake:21-35", "cmake_utils/cmake/cpp_common/configure_project_cpp.cmake:38-48"]}
{"id": "C140", "title": "Help texts are measured in columns of the screen", "statement": "printUsage measures the texts between separators in bytes and in columns of the screen as its documentation says: each UTF-8 sequence counts once, Asian wide characters count twice.", "quantifier": "every text in UTF-8, whatever separator follows it", "why_tests_cant": "texts cannot be enumerated.", "anchors": ["thirdparty/optionparser/optionparser.h:LinePartIterator::update_length", "thirdparty/optionparser/optionparser.h:isWideChar"]}
{"id": "C141", "title": "Tabs separate cells, vertical tabs the lines of a cell", "statement": "The parts printUsage makes of a row are the cells between tabs, line by line and from left to right, a cell having the lines between its vertical tabs and being filled up with empty ones; the row ends at a line break or at the end of the text.", "quantifier": "every row", "why_tests_cant": "rows cannot be enumerated.", "anchors": ["thirdparty/optionparser/optionparser.h:LinePartIterator::next", "thirdparty/optionparser/optionparser.h:LinePartIterator::nextRow"]}
{"id": "C142", "title": "Long texts are cut at spaces, and nothing but these spaces is lost", "statement": "The lines LineWrapper writes for a text are as wide as allowed at most, all begin in the same column, are cut at the last space that fits or, if there is none, after as many characters as fit, and together have all characters of the text but the spaces cut at, in order; there is one way to cut a text.", "quantifier": "every text, every column and width", "why_tests_cant": "texts and widths cannot be enumerated.", "anchors": ["thirdparty/optionparser/optionparser.h:LineWrapper::process", "thirdparty/optionparser/optionparser.h:LineWrapper::flush"]}
{"id": "C143", "title": "Lines of several texts come out in order, each once", "statement": "The lines of texts given to a LineWrapper one after the other are written in order and once each, one with each text while less than sixteen wait, the rest when it is flushed; the ring buffer never overflows.", "quantifier": "every sequence of texts", "why_tests_cant": "the buffer overflows only for long texts in narrow columns.", "anchors": ["thirdparty/optionparser/optionparser.h:LineWrapper::buf_store", "thirdparty/optionparser/optionparser.h:LineWrapper::process", "thirdparty/optionparser/optionparser.h:LineWrapper::flush"]}
{"id": "C144", "title": "Columns are as wide as the widest cells there is room for", "statement": "The widths printUsage chooses end with columns before the last one that fit into the width; each column is as wide as one of its cells, and a cell that does not fit into its column is wider than every column; if the widest cells leave room, all of them fit.", "quantifier": "every sequence of cells and every width", "why_tests_cant": "cells cannot be enumerated; the loop that drops the widest cells has to end for all of them.", "anchors": ["thirdparty/optionparser/optionparser.h:2855-2906"]}
{"id": "C145", "title": "printUsage writes all tables, each laid out on its own", "statement": "For every array of descriptors printUsage ends and writes the tables between descriptors without help one after the other as if they were alone; in each, every cell begins in the column of the screen its column begins in, the last one on lines of its own if there is less room than asked for, and the pieces are the cells in order, those of the last column and plain rows cut to their widths.", "quantifier": "every array of descriptors, width and percentages", "why_tests_cant": "arrays cannot be enumerated.", "anchors": ["thirdparty/optionparser/optionparser.h:2826-3018"]}
{"id": "C146", "title": "Explanations of options are aligned", "statement": "If each row has an option and an explanation, separated by a tab, and both fit beside each other, printUsage writes each row on one line, with all explanations beginning in the column behind the widest option.", "quantifier": "every list of options and explanations, width and percentages with enough room", "why_tests_cant": "lists of texts cannot be enumerated.", "anchors": ["thirdparty/optionparser/optionparser.h:printUsage"]}
{"id": "C147", "title": "No line is wider than asked for", "statement": "printUsage writes no character beyond the given width (80 if it is less than 1, 10000 if it is more).", "quantifier": "every array of descriptors, width and percentages", "why_tests_cant": "arrays and widths cannot be enumerated.", "anchors": ["thirdparty/optionparser/optionparser.h:printUsage", "thirdparty/optionparser/optionparser.h:3187"]}
{"id": "C148", "title": "Nothing of the help texts is lost", "statement": "printUsage writes every character of the help texts, apart from spaces and separators, as often as it is there.", "quantifier": "every array of descriptors, width and percentages", "why_tests_cant": "arrays cannot be enumerated.", "anchors": ["thirdparty/optionparser/optionparser.h:printUsage"]}
{"id": "C149", "title": "A C++ wait does not time out early", "statement": "A wait of WaitHandler, CounterWaitHandler or ConsumerWaitHandler with a timeout in milliseconds that returns timeout (or throws TimeoutException) has lasted at least that long.", "quantifier": "every execution of any number of threads next to a monotonic and a system clock, every timeout", "why_tests_cant": "a test of durations sees the clocks and the interleavings of its own run.", "anchors": ["cpp_utils/include/cpp_utils/wait/impl/WaitHandler.ipp:138-178", "cpp_utils/src/cpp/wait/CounterWaitHandler.cpp:81-119"]}
{"id": "C150", "title": "A C++ wait with a timeout ends", "statement": "A wait of WaitHandler with a positive timeout returns, however often it is woken in vain, and not long after its timeout.", "quantifier": "every fair execution of any number of threads next to a monotonic and a system clock", "why_tests_cant": "a wait that does not end is not seen in finite time, and depends on the system clock.", "anchors": ["cpp_utils/include/cpp_utils/wait/impl/WaitHandler.ipp:138-178"]}
{"id": "C151", "title": "A Python wait does not time out early", "statement": "A wait of the Python WaitHandler with a timeout that returns timeout has lasted at least that long, whatever happens to the system clock.", "quantifier": "every execution of any number of threads, every timeout", "why_tests_cant": "a test of durations sees the clocks and the interleavings of its own run.", "anchors": ["py_utils/py_utils/wait/WaitHandler.py:130-145"]}
{"id": "C152", "title": "Periodic calls keep their distance", "statement": "Between the end of a call of the callback by the thread of PeriodicEventHandler and the next one the period passes at least, also if the callback is unset and set meanwhile; and the first call comes a period after the thread began at the earliest, whatever happens to the system clock.", "quantifier": "every execution of any number of threads setting, unsetting and simulating events", "why_tests_cant": "interleavings and clocks cannot be enumerated.", "anchors": ["cpp_utils/src/cpp/event/PeriodicEventHandler.cpp:55-110"]}
{"id": "C153", "title": "The screen shows the line that is edited", "statement": "While a line is typed into a StdinEventHandler on a terminal of any width, after every key the screen shows prompt and line from the row where the prompt was, wrapped at the last column, nothing else in these rows and those below, what was above, and the cursor where the next character goes.", "quantifier": "every sequence of keys and every width", "why_tests_cant": "sequences of keys and widths cannot be enumerated, and a test would need a terminal.", "anchors": ["cpp_utils/src/cpp/event/StdinEventHandler.cpp:update_line", "cpp_utils/src/cpp/event/StdinEventHandler.cpp:clear_lines", "cpp_utils/src/cpp/event/StdinEventHandler.cpp:300-565"]}
{"id": "C154", "title": "What follows a line is written below it", "statement": "After Enter or Ctrl+C the cursor is at the beginning of the first row below the line, which is still shown in whole.", "quantifier": "every line, cursor and width", "why_tests_cant": "lines and widths cannot be enumerated, and a test would need a terminal.", "anchors": ["cpp_utils/src/cpp/event/StdinEventHandler.cpp:515-552"]}
{"id": "C155", "title": "A task that throws does not keep the pool from executing the others", "statement": "However the tasks of a SlotThreadPool end, by returning or with an exception, in a pool that has a thread and is not disabled every emit that was accepted is followed by an execution of its task.", "quantifier": "any number of worker and client threads, every fair schedule, every combination of endings (fewer than 2^32 ids queued at a time)", "why_tests_cant": "liveness: needs infinite executions and all schedules.", "anchors": ["cpp_utils/src/cpp/thread_pool/pool/SlotThreadPool.cpp:thread_routine_"]}
{"id": "C156", "title": "Random numbers drawn by several threads are those of one sequence", "statement": "However threads use one TSafeRandomManager, its calls take effect one after the other, each between its start and its return, and give what a RandomManager used by one thread gives: the sequence_rand calls of all threads get the numbers of the seed one after the other, none twice and none left out, seeded_rand gets the number of its seed.", "quantifier": "any number of threads and calls, every interleaving, every generator", "why_tests_cant": "interleavings cannot be enumerated; a lost update of the generator is rare and looks random.", "anchors": ["cpp_utils/src/cpp/math/random/TSafeRandomManager.cpp:35-59", "cpp_utils/include/cpp_utils/types/Atomicable.hpp:42-47"]}
{"id": "C157", "title": "Drawing random numbers never blocks for ever", "statement": "Every call of a TSafeRandomManager returns, whatever the other threads do.", "quantifier": "any number of threads and calls, every fair schedule", "why_tests_cant": "liveness: needs infinite executions and all schedules.", "anchors": ["cpp_utils/src/cpp/math/random/TSafeRandomManager.cpp:35-59"]}
{"id": "C158", "title": "A task may use its pool", "statement": "A task executed by a SlotThreadPool may call emit, slot, wait_all_consumed and disable of this pool: the calls return, and every emit accepted from a task is executed like those of clients.", "quantifier": "any number of worker and client threads, every fair schedule, any calls made by tasks (finitely many by each)", "why_tests_cant": "liveness: needs infinite executions and all schedules.", "anchors": ["cpp_utils/src/cpp/thread_pool/pool/SlotThreadPool.cpp:emit", "cpp_utils/src/cpp/thread_pool/pool/SlotThreadPool.cpp:slot", "cpp_utils/src/cpp/thread_pool/pool/SlotThreadPool.cpp:disable", "cpp_utils/src/cpp/thread_pool/pool/SlotThreadPool.cpp:thread_routine_"]}
{"id": "C159", "title": "Waits on counters and queues with a timeout end", "statement": "wait_and_decrement, wait_threshold_reached, wait_all_consumed and consume, called with a timeout, return (or throw) in the end, whatever the other threads do; so does wait_all_consumed of a SlotThreadPool.", "quantifier": "any number of threads, every fair schedule in which timeouts that stay possible occur, any spurious wake-ups", "why_tests_cant": "liveness: needs infinite executions and all schedules.", "anchors": ["cpp_utils/src/cpp/wait/CounterWaitHandler.cpp:wait_and_decrement", "cpp_utils/src/cpp/wait/CounterWaitHandler.cpp:wait_threshold_reached", "cpp_utils/include/cpp_utils/wait/impl/ConsumerWaitHandler.ipp:consume", "cpp_utils/src/cpp/thread_pool/pool/SlotThreadPool.cpp:wait_all_consumed"]}
{"id": "C160", "title": "Several threads may enable and disable a thread pool", "statement": "enable and disable of one SlotThreadPool may be called by several threads at any time, beside emit, slot and wait_all_consumed: the list of threads is never changed while another thread uses it, no running thread is destroyed, no more than number_of_threads tasks are executed at the same time, and when all calls have returned an enabled pool has exactly number_of_threads threads and a disabled one none; disable returns only when every thread has finished.", "quantifier": "any number of threads and calls, every interleaving, every size of the pool", "why_tests_cant": "interleavings cannot be enumerated; the window in which enable and disable overlap is a few instructions.", "anchors": ["cpp_utils/src/cpp/thread_pool/pool/SlotThreadPool.cpp:enable", "cpp_utils/src/cpp/thread_pool/pool/SlotThreadPool.cpp:disable"]}
{"id": "C161", "title": "A queue may be destroyed while threads use it", "statement": "The destructor of a counter or of a consumer queue disables it and blocks until every thread has finished: no call that is in progress when the destruction starts uses a part of the object that has been destroyed, waiting calls end with disabled (or their timeout), and the destructor returns.", "quantifier": "any number of threads within any calls, every interleaving, every fair schedule, any spurious wake-ups and timeouts", "why_tests_cant": "interleavings cannot be enumerated; using a destroyed member often goes unnoticed; that the destructor returns needs infinite executions.", "anchors": ["cpp_utils/include/cpp_utils/wait/impl/WaitHandler.ipp:45-49", "cpp_utils/include/cpp_utils/wait/WaitHandler.hpp:80-84", "cpp_utils/include/cpp_utils/wait/DBQueueWaitHandler.hpp:73-77", "cpp_utils/src/cpp/wait/CounterWaitHandler.cpp:37-39"]}
{"id": "C162", "title": "Modes of file access compose", "statement": "is_file_accessible with modes combined by | is true exactly if it is true for each of the modes, every mode asks for existence too, the named combinations ask for what their names say, and & tells whether a mode is part of another.", "quantifier": "every file (missing, or with any permissions) and every two modes, also combined ones", "why_tests_cant": "two arbitrary integers and every combination of permissions; tests use two files.", "anchors": ["cpp_utils/src/cpp/utils.cpp:55-71", "cpp_utils/src/cpp/utils.cpp:is_file_accessible", "cpp_utils/include/cpp_utils/utils.hpp:39-66"]}
{"id": "C163", "title": "Log macros act once or not at all", "statement": "logDebug and logDevError log one entry of kind Info that ends with their message, evaluating it once, or (by the build or the verbosity) do nothing and do not evaluate it; logUser always prints its message and a newline.", "quantifier": "every build configuration, every verbosity, every message with any side effects", "why_tests_cant": "a test binary is one build configuration.", "anchors": ["cpp_utils/include/cpp_utils/Log.hpp:32-118"]}
{"id": "C164", "title": "The object of a Heritable is deleted once, as what it is", "statement": "An object given to a Heritable by pointer or made by make_heritable exists as long as some Heritable refers to it, through whatever copies, moves, assignments and conversions to other classes, and is deleted exactly once, with the destructor of the class it was made with, when the last of them goes or refers elsewhere.", "quantifier": "All histories of construction from pointers, copy, move, conversion, assignment and destruction of Heritables, for all classes and objects", "why_tests_cant": "Tests keep few Heritables alive, in one or two classes with virtual destructors, and a second or a missing deletion has no effect an assertion can see.", "anchors": ["cpp_utils/include/cpp_utils/memory/impl/Heritable.ipp:32-96", "cpp_utils/include/cpp_utils/memory/impl/Heritable.ipp:187-193", "cpp_utils/include/cpp_utils/memory/Heritable.hpp:137-138"]}
{"id": "C165", "title": "Lines typed are given to the callback in order, each once, and no more than asked for", "statement": "A StdinEventHandler processes the lines typed in order, each once, no more of them than lines_to_read and the calls of read_one_more_line ask for, and gives each of them to the callback; when set_callback returns the reading thread exists, when unset_callback returns it has ended, and until a callback is set again nothing is read and what is typed is kept.", "quantifier": "any number of threads that set and unset the callback and ask for lines, every interleaving with typing", "why_tests_cant": "interleavings cannot be enumerated; a line lost between unset_callback and set_callback needs a moment of a few instructions.", "anchors": ["cpp_utils/src/cpp/event/StdinEventHandler.cpp:193-213", "cpp_utils/src/cpp/event/StdinEventHandler.cpp:268-280", "cpp_utils/src/cpp/event/StdinEventHandler.cpp:572-582", "cpp_utils/include/cpp_utils/event/impl/EventHandler.ipp:45-120", "cpp_utils/include/cpp_utils/event/impl/EventHandler.ipp:176-203"]}
{"id": "C166", "title": "A line that is asked for and typed reaches the callback", "statement": "Line number t is given to the callback once it is typed and asked for, by lines_to_read or by read_one_more_line, unless the callback is unset before.", "quantifier": "any number of threads, every fair schedule, callbacks that may ask for more lines", "why_tests_cant": "liveness: needs infinite executions and all schedules.", "anchors": ["cpp_utils/src/cpp/event/StdinEventHandler.cpp:stdin_listener_thread_routine_", "cpp_utils/src/cpp/event/StdinEventHandler.cpp:read_one_more_line"]}
{"id": "C167", "title": "Calls of a StdinEventHandler return", "statement": "set_callback, unset_callback, read_one_more_line and the destructor of a StdinEventHandler return, also when they are called while lines are read and callbacks run, and from callbacks.", "quantifier": "any number of threads, every fair schedule, every callback", "why_tests_cant": "liveness: needs infinite executions and all schedules.", "anchors": ["cpp_utils/src/cpp/event/StdinEventHandler.cpp:205-213", "cpp_utils/src/cpp/event/StdinEventHandler.cpp:572-582", "cpp_utils/include/cpp_utils/event/impl/EventHandler.ipp:45-120"]}
{"id": "C168", "title": "The terminal is left as it was", "statement": "While a StdinEventHandler reads, the terminal gives single characters without echo and signals; when no handler reads any more, the terminal is as before.", "quantifier": "every mode of the terminal, any number of handlers starting and ending in any order", "why_tests_cant": "orders of starting and ending cannot be enumerated, and a test would need a terminal.", "anchors": ["cpp_utils/src/cpp/event/StdinEventHandler.cpp:set_terminal_mode_", "cpp_utils/src/cpp/event/StdinEventHandler.cpp:270", "cpp_utils/src/cpp/event/StdinEventHandler.cpp:569"]}
{"id": "C169", "title": "read_next_command gets the lines typed, on request", "statement": "Each line typed is returned by exactly one call of read_next_command, in the order typed; lines are read for calls in progress only, so that what is typed otherwise stays in the input; and every call returns if lines are typed whenever they are wanted.", "quantifier": "any number of threads calling read_next_command at the same time, every fair interleaving with typing", "why_tests_cant": "interleavings cannot be enumerated; that calls return needs infinite executions.", "anchors": ["cpp_utils/include/cpp_utils/user_interface/impl/CommandReader.ipp:read_next_command", "cpp_utils/include/cpp_utils/user_interface/impl/CommandReader.ipp:read_command_callback_"]}
{"id": "C170", "title": "A StdinEventHandler reads from its source, by lines or by words", "statement": "The callback of a StdinEventHandler gets the lines of the stream given as source, or its words if read_lines is false, up to as many as asked for.", "quantifier": "every text, source and arguments", "why_tests_cant": "texts cannot be enumerated.", "anchors": ["cpp_utils/src/cpp/event/StdinEventHandler.cpp:193-203", "cpp_utils/include/cpp_utils/event/StdinEventHandler.hpp:46-63"]}
{"id": "C171", "title": "An event handler can be destroyed while it is in use", "statement": "Once the destructor of an event handler (which calls unset_callback) has returned, no thread that was in one of its calls when the destruction started uses the handler; the destructor returns.", "quantifier": "every number of threads, every state of each when the destruction starts and every interleaving afterwards", "why_tests_cant": "interleavings with a destruction cannot be enumerated, and a use of a destroyed object rarely shows.", "anchors": ["cpp_utils/include/cpp_utils/event/impl/EventHandler.ipp:81-145", "cpp_utils/include/cpp_utils/event/impl/EventHandler.ipp:176-217", "cpp_utils/include/cpp_utils/event/EventHandler.hpp:60-115", "cpp_utils/src/cpp/event/PeriodicEventHandler.cpp:55-58"]}
{"id": "C172", "title": "A callback may use its own event handler", "statement": "A callback of an event handler may set a callback, unset the callback or raise an event of its own handler, and go on using its captured variables afterwards; an event calls the callback that was set last, if it has not been unset since, and every call that has returned is counted once (modulo 2^32).", "quantifier": "every callback, every sequence of calls by the client and every nesting of events", "why_tests_cant": "the nestings are unbounded, and a use of a function object that has been destroyed usually shows no symptom in a test.", "anchors": ["cpp_utils/include/cpp_utils/event/impl/EventHandler.ipp:48-118", "cpp_utils/include/cpp_utils/event/impl/EventHandler.ipp:170-202", "cpp_utils/include/cpp_utils/event/EventHandler.hpp:192-208"]}
{"id": "C173", "title": "A MultipleEventHandler can be destroyed while its handlers raise events", "statement": "Events of the handlers inside (those that stop their source when destroyed: periodic, file, signal and standard input) in any number of threads call the callback of the MultipleEventHandler one at a time and exactly once each, and its count is the sum of theirs modulo 2^32; the destructor returns although events keep occurring, and once it has returned no thread is within an event, the callback is not called again and no mutex of it is locked.", "quantifier": "every number of handlers and threads, every state of the events when the destruction starts and every interleaving", "why_tests_cant": "interleavings of a destruction with events of several sources cannot be enumerated; termination is about infinite executions.", "anchors": ["cpp_utils/src/cpp/event/MultipleEventHandler.cpp:44-60", "cpp_utils/include/cpp_utils/event/impl/MultipleEventHandler.ipp:28-44", "cpp_utils/include/cpp_utils/event/impl/EventHandler.ipp:48-118", "cpp_utils/include/cpp_utils/event/impl/EventHandler.ipp:177-202"]}
{"id": "C174", "title": "Installed headers are included by the same names as in the build", "statement": "With the settings of the README, the names by which the headers of a library can be included once it is installed are those by which they are included in the build: the headers in the include directory below MODULE_HEADERS_PATH and those made from templates, and no others.", "quantifier": "every tree of headers, every name of a module", "why_tests_cant": "trees of files and settings cannot be enumerated, and tests use the build, not the installation.", "anchors": ["cmake_utils/cmake/compilation/compile_library.cmake:72-90", "cmake_utils/cmake/compilation/compile_library.cmake:123-139", "cmake_utils/cmake/compilation/compile_library.cmake:174-197", "cmake_utils/README.md:69-70"]}
{"id": "C175", "title": "A tool or library is one target with the settings of the module", "statement": "compile_tool and compile_library make one target with the name of the module, with the sources, include directories and dependencies given, the output name MODULE_TARGET_NAME and the installation directory of the module, and leave all other targets as they are; they do nothing if BUILD_TOOL or BUILD_LIBRARY is off.", "quantifier": "every state of the variables and of the targets, all sources and include directories", "why_tests_cant": "states of variables and targets cannot be enumerated.", "anchors": ["cmake_utils/cmake/compilation/compile_tool.cmake:25-92", "cmake_utils/cmake/compilation/compile_library.cmake:27-139", "cmake_utils/README.md:64"]}
{"id": "C176", "title": "On Windows tests find the libraries they use", "statement": "The entries of ctest run on Windows with a PATH that has the directory of every library the test is linked to, directly or through other libraries, before the entries of the environment, none twice.", "quantifier": "every graph of targets, every environment", "why_tests_cant": "graphs of libraries cannot be enumerated.", "anchors": ["cmake_utils/cmake/test/test_requirements.cmake:22-67", "cmake_utils/cmake/test/test_target.cmake:60-87"]}
{"id": "C177", "title": "An installed library is found with its dependencies", "statement": "find_package with the name of the module finds an installed library and makes its target, given that the packages it depends on are installed.", "quantifier": "every name, every list of dependencies, every state of the project that looks for it", "why_tests_cant": "projects that use the library cannot be enumerated, and tests use the build.", "anchors": ["cmake_utils/templates/cmake/packaging/library-Config.cmake.in:15-33", "cmake_utils/cmake/compilation/compile_library.cmake:202-283"]}
{"id": "C178", "title": "Times are converted correctly by several threads", "statement": "timestamp_to_string and time_to_timestamp give each thread the text or the instant of its own arguments, whatever other threads convert at the same time.", "quantifier": "every number of threads, every interleaving, every time, format and time zone", "why_tests_cant": "a conversion lost to another thread needs an interleaving of a few instructions, which tests do not meet.", "anchors": ["cpp_utils/src/cpp/time/time_utils.cpp:73-119"]}
{"id": "C179", "title": "The usage text arrives whole, or the caller can tell", "statement": "printUsage gives the whole text, in order, to the function, object, stream or file descriptor it is called with; if the destination does not take all of it, the caller can tell.", "quantifier": "every text in any pieces, every sequence of short writes of the destination, all five ways to call printUsage", "why_tests_cant": "short writes depend on the system and are not produced by tests; their sequences cannot be enumerated.", "anchors": ["thirdparty/optionparser/optionparser.h:2013-2155", "thirdparty/optionparser/optionparser.h:3219-3290"]}
{"id": "C180", "title": "Calls of callbacks to their own handler return", "statement": "The calls that callbacks make to their own event handler (set_callback, unset_callback, wait_for_event, events, event_count, reset_event_count, decrement_event_count) return, whatever other threads do with the handler at the same time, and so do the events in which the callbacks are called.", "quantifier": "any number of threads, every callback with nested events, every interleaving and fair schedule", "why_tests_cant": "interleavings and nestings cannot be enumerated; that calls return, or never do, is about infinite executions.", "anchors": ["cpp_utils/include/cpp_utils/event/impl/EventHandler.ipp:48-217", "cpp_utils/include/cpp_utils/event/EventHandler.hpp:202-208"]}
{"id": "C181", "title": "blocking_disable and stop_and_continue release every waiting thread", "statement": "When blocking_disable has returned, or stop_and_continue of an enabled handler, every thread that waited when it was called has stopped waiting, be it asleep or awake and about to look at its condition again (it need not have returned yet, see C53); stop_and_continue returns with the handler enabled and blocking_disable with it disabled.", "quantifier": "any number of threads, every interleaving, handlers of values, counters and queues", "why_tests_cant": "threads that start to wait or to wake meanwhile make interleavings that cannot be enumerated.", "anchors": ["cpp_utils/include/cpp_utils/wait/impl/WaitHandler.ipp:75-115", "cpp_utils/include/cpp_utils/wait/impl/WaitHandler.ipp:220-231", "cpp_utils/include/cpp_utils/wait/WaitHandler.hpp:149-152"]}
{"id": "C182", "title": "Every way to save a file is reported", "statement": "A FileWatcherHandler for a file calls its callback when the text read from that file changes: when the file is written to in place, when a new version is renamed to it (as editors and tools save files), when the path is a symbolic link and the file behind it is written, and when it is written by another of its names; operations on other files are not reported.", "quantifier": "all directories, files, hard and symbolic links, all sequences of writes, renames, links and removals", "why_tests_cant": "the ways in which programs save files cannot be enumerated, and tests write in place only.", "anchors": ["thirdparty/filewatch/FileWatch.hpp:505-549", "thirdparty/filewatch/FileWatch.hpp:543", "cpp_utils/src/cpp/event/FileWatcherHandler.cpp:55-95"]}
{"id": "C183", "title": "Bursts of changes are not lost", "statement": "When the watched file is modified, a FileWatcherHandler reports a modification afterwards, however many changes happen in the directory at the same time; what it reports are modifications that occurred, in order, each at most once.", "quantifier": "every sequence of changes in the directory and of reads, every bound of the queue of the kernel", "why_tests_cant": "bursts depend on the load, and their sequences cannot be enumerated.", "anchors": ["thirdparty/filewatch/FileWatch.hpp:543-590"]}
{"id": "C184", "title": "The object of an InitializableSingleton stays", "statement": "initialize builds the object of an InitializableSingleton and returns true; get_instance gives null before that and afterwards the object built last; pointers from get_instance are valid for the rest of the process, and objects kept by get_shared_instance exist as long as the pointers given.", "quantifier": "every history of initialize, get_instance, get_shared_instance and of the destruction of shared pointers", "why_tests_cant": "histories cannot be enumerated, and a dangling pointer to a replaced object usually shows no symptom.", "anchors": ["cpp_utils/include/cpp_utils/types/impl/InitializableSingleton.ipp:25-48", "cpp_utils/include/cpp_utils/types/InitializableSingleton.hpp:52-84"]}
{"id": "C185", "title": "remove_prefix gives what follows the prefix and the slash", "statement": "remove_prefix removes the prefix and the slash that follows it from a name that begins with both, and gives an empty text for all other names; demangle_ros_topic_prefix_from_topic does so for the prefix of topics; remove_prefix undoes add_prefix for names that begin with a slash.", "quantifier": "every name and every prefix", "why_tests_cant": "names cannot be enumerated.", "anchors": ["cpp_utils/src/cpp/ros2_mangling.cpp:36-52", "cpp_utils/src/cpp/ros2_mangling.cpp:181-185", "cpp_utils/include/cpp_utils/ros2_mangling.hpp:27-42"]}
{"id": "C186", "title": "A pool works on after an exception of new_element_ or reset_element_", "statement": "When new_element_ throws in loan, the exception reaches the caller and the pool works on: elements already built are lent later, none is lent twice, what a client holds is taken back by return_loan, and returning more than was lent is detected; when reset_element_ throws in return_loan, the pool is unchanged and the element can be returned again.", "quantifier": "every configuration, every history of loans and returns, every choice of the constructions and resets that throw", "why_tests_cant": "exceptions of constructors, such as an allocation that fails, do not occur in tests, and the moments at which they can occur cannot be enumerated.", "anchors": ["cpp_utils/include/cpp_utils/pool/impl/UnboundedPool.ipp:46-122"]}
{"id": "C187", "title": "An exception of a copy loses no value of a DBQueueWaitHandler", "statement": "When copying or moving a value throws in produce or consume of a DBQueueWaitHandler, the exception reaches the caller and nothing else happens: a value that consume failed to copy can be consumed by a later call, elements_ready_to_consume is the number of values left, and wait_all_consumed returns when all values have been returned by consume.", "quantifier": "every sequence of values, every interleaving of any number of producers and consumers, every choice of the copies that throw", "why_tests_cant": "copies that throw do not occur in tests, and interleavings cannot be enumerated.", "anchors": ["cpp_utils/include/cpp_utils/wait/impl/ConsumerWaitHandler.ipp:43-86", "cpp_utils/include/cpp_utils/wait/impl/DBQueueWaitHandler.ipp:26-66", "cpp_utils/src/cpp/wait/CounterWaitHandler.cpp:41-139"]}
{"id": "C188", "title": "An exception of a deleter leaves owner and lessees usable", "statement": "When the deleter of an OwnerPtr throws in reset(), in its destructor or in an assignment to it, the exception reaches the caller; the deleter is called once, and later calls on the owner and on its lessees return and report that the datum is gone.", "quantifier": "every sequence of calls of any number of threads before and after", "why_tests_cant": "deleters that throw do not occur in tests, and what happens afterwards depends on unbounded sequences of calls.", "anchors": ["cpp_utils/include/cpp_utils/memory/impl/InternalPtrData.ipp:110-120", "cpp_utils/include/cpp_utils/memory/impl/OwnerPtr.ipp:49-106", "cpp_utils/include/cpp_utils/memory/impl/LesseePtr.ipp:53-92"]}
{"id": "C189", "title": "The generated header links a Windows program with the library that was built", "statement": "The header library_dll.h that compile_library makes for a module exports the symbols of a shared library in the library, imports them in its users and does neither for a static library; under MSVC a user that includes the headers of the libraries it uses asks the linker for the file of each library as compile_library names it, in every configuration, and asks for nothing with EPROSIMA_ALL_NO_LIB, with <module>_NO_LIB or with another compiler; contradicting requests stop the compilation; including the header twice is including it once.", "quantifier": "every module, name, version and configuration, every set of other macros, shared and static libraries", "why_tests_cant": "the tests of the project include the header of one library in the configurations of its CI; names, versions, configurations and combinations of libraries cannot be enumerated.", "anchors": ["cmake_utils/templates/cpp/library/library_dll.h.in:15-76", "cmake_utils/templates/cpp/library/eProsima_auto_link.h.in:22-71", "cmake_utils/cmake/compilation/compile_library.cmake:92-173"]}
{"id": "C190", "title": "config.h tells the version and the commit of the module", "statement": "The header config.h that compile_library makes for a module gives the three numbers of its version as macros, the version with a v before it as MACRO_VERSION_STRING and the commit of its repository as MACRO_COMMIT_HASH, the numbers as texts that name the library the build makes; a VERSION file without one of the numbers is reported.", "quantifier": "every VERSION file, version, macro, directory and repository, every state of the variables, modules inside others", "why_tests_cant": "the tests do not run the macros; files, versions and nestings cannot be enumerated.", "anchors": ["cmake_utils/templates/cpp/library/config.h.in:15-34", "cmake_utils/cmake/project/read_commit_hash.cmake:27-37", "cmake_utils/cmake/project/configure_project.cmake:62-75", "cpp_utils/CMakeLists.txt:36-47"]}
{"id": "C191", "title": "A module that is new enough is found", "statement": "With <library>_MINIMUM_VERSION, an installed module is found exactly when its version is equal to or higher than the one asked for; without a version every module installed is found.", "quantifier": "every version installed and every version asked for, with any number of numbers", "why_tests_cant": "versions cannot be enumerated, and tests look for one installed version.", "anchors": ["cmake_utils/cmake/compilation/compile_library.cmake:266-272", "cmake_utils/CMakeLists.txt:98-105", "cmake_utils/cmake/cpp_common/find_external.cmake:28-50", "cmake_utils/README.md:97-107"]}
{"id": "C192", "title": "Modules below one prefix keep their files apart, and packages have them all", "statement": "Two modules with different names that are installed below the same prefix have no installed file in common, so that neither changes the other; a package made by the components that eprosima_packaging lists has every file that is installed.", "quantifier": "every pair of modules: names, versions, headers, licences, resources and directories", "why_tests_cant": "pairs of modules and their files cannot be enumerated, and tests do not install.", "anchors": ["cmake_utils/cmake/compilation/compile_library.cmake:175-282", "cmake_utils/cmake/packaging/eProsima_packaging.cmake:20-57", "cmake_utils/cmake/packaging/install_resources.cmake:20-40", "cmake_utils/cmake/project/installation_paths.cmake:27-69"]}
{"id": "C193", "title": "cmake_utils may be asked for as often and wherever wanted", "statement": "find_package(cmake_utils), where the package is installed, succeeds however often and in whichever functions and directories of a project it is called, never stops with the error that it is included more than once, and afterwards cmake_utils_FOUND is true, CMAKE_MODULE_PATH of that scope has the directory with the find modules once, and the paths of the templates are set there; a scope that is left is as it was before.", "quantifier": "every sequence of calls, of changes to CMAKE_MODULE_PATH and cmake_utils_FOUND, and of beginnings and ends of functions and directories", "why_tests_cant": "test projects ask for the package once, at their top; the errors need nested scopes or a variable changed in between", "anchors": ["cmake_utils/loader/cmakeonly-Config.cmake.in:19-51", "cmake_utils/loader/load_all.cmake:16-46", "cmake_utils/CMakeLists.txt:84-97"]}
{"id": "C194", "title": "On Windows the modifications of the watched file, and no others, are reported", "statement": "On Windows, the loop over the buffer that the system has filled finds exactly the changes written there, with their kinds and names, and never reads beyond them; a FileWatcherHandler for a file calls its callback once for each time the file is written to, in whichever letters the path names it and whichever characters its name has, and when a new version is renamed to it; it does not for other files, nor when the text of the file stays the same.", "quantifier": "every path, every sequence of changes with names of any length and any padding, every code page with one byte for each character", "why_tests_cant": "names, paths and sequences of changes are unbounded, tests use one ASCII name in an empty directory and write in place", "anchors": ["thirdparty/filewatch/FileWatch.hpp:286-321", "thirdparty/filewatch/FileWatch.hpp:186-202", "thirdparty/filewatch/FileWatch.hpp:352-401", "thirdparty/filewatch/FileWatch.hpp:426-491", "cpp_utils/src/cpp/event/FileWatcherHandler.cpp:62-74"]}
{"id": "C195", "title": "On Windows every change is reported while a FileWatch exists, and its destructor returns", "statement": "On Windows, the callback of a FileWatch is called once for every change of the file, as long as the object is not destroyed and the directory can be watched, and never more often than there are changes; the destructor returns, whatever the two threads of the object are doing and whatever has happened to the directory; afterwards the callback is not called any more.", "quantifier": "any number of changes and clients, every interleaving with spurious wake-ups, every fair schedule", "why_tests_cant": "a lost wake-up needs an interleaving of a few instructions, and that calls return, or never do, is about infinite executions; the tests run on one schedule.", "anchors": ["thirdparty/filewatch/FileWatch.hpp:171-184", "thirdparty/filewatch/FileWatch.hpp:245-284", "thirdparty/filewatch/FileWatch.hpp:426-499", "thirdparty/filewatch/FileWatch.hpp:600-630"]}
{"id": "C196", "title": "An exception says the message it was made with", "statement": "what() of an exception of cpp_utils gives the message it was made with, be it made from a pointer, a string or a Formatter into which texts and the messages of other exceptions were streamed, and so it does for every copy, also one that is caught by value as an Exception, and after an assignment; it is caught by the first handler for its class or for Exception.", "quantifier": "every class, every message, every sequence of constructions, copies, assignments and destructions", "why_tests_cant": "messages and sequences of copies are unbounded, and the tests of the project do not look at messages.", "anchors": ["cpp_utils/include/cpp_utils/exception/Exception.hpp:34-93", "cpp_utils/src/cpp/exception/Exception.cpp:25-46", "cpp_utils/src/cpp/Formatter.cpp:30-33"]}
{"id": "C197", "title": "What the options ask for is built, tested and packaged", "statement": "Of the library, tool, documentation and tests that a module has, exactly those are built that the user asks for by the options of the README, given or by default, for a module alone and in a project with other modules; ctest runs the tests that are built, and a package has the documentation that is built.", "quantifier": "every choice of options and values, every set of modules and of macros that they call, in every order", "why_tests_cant": "combinations of options and modules cannot be enumerated, and tests use one of them.", "anchors": ["cmake_utils/cmake/project/cmake_options.cmake:44-112", "cmake_utils/cmake/compilation/compile_test.cmake:21-75", "cmake_utils/cmake/compilation/compile_documentation.cmake:20-72", "cmake_utils/cmake/packaging/eProsima_packaging.cmake:20-57", "cmake_utils/README.md:117-126"]}
{"id": "C198", "title": "Tests are linked with the GoogleTest and GoogleMock of their configuration", "statement": "After test_requirements(), an executable made by add_test_executable is linked, in the debug configuration, with the GoogleMock library for debugging if there is one and otherwise with the one there is, in all others with that for release; besides with GoogleTest, the library of threads and every library that is asked for. GoogleMock is found if its two libraries and its header are given or are in one of the directories to look into; values that are given, also GMOCK_ROOT, take precedence over all others, and every directory of the project gets the same library.", "quantifier": "all values of the variables and of the cache, all computers (files found by any directory and name, environment), both configurations, all lists of libraries, all numbers of calls", "why_tests_cant": "A test sees one computer with one GoogleMock and one configuration; the two kinds of libraries, lists, the order of directories and the calls in other directories are never seen together.", "anchors": ["cmake_utils/cmake/test/gtest.cmake:17-76", "cmake_utils/modules/FindGMock.cmake:62-129", "cmake_utils/cmake/test/test_target.cmake:53-58", "cmake_utils/cmake/test/test_requirements.cmake:70-77"]}
{"id": "C199", "title": "Classes for several threads have no data races", "statement": "Threads may call the functions of one EventHandler (PeriodicEventHandler, SignalEventHandler, FileWatcherHandler, StdinEventHandler, LogEventHandler, LogSevereEventHandler, MultipleEventHandler), SignalManager, WaitHandler (BooleanWaitHandler, IntWaitHandler, CounterWaitHandler, DBQueueWaitHandler), SafeDatabase, SlotThreadPool or TSafeRandomManager at the same time, also from their callbacks and predicates, of one DBQueue with one consumer, and of the lessees of one OwnerPtr: no two of these calls ever access the same non-atomic member at the same time, one of them writing it.", "quantifier": "any number of threads, any sequences of calls and any calls of callbacks, every interleaving of the single accesses, whatever branches are taken", "why_tests_cant": "A data race shows only in some interleavings, on some hardware, and often not at all; tests run a few schedules.", "anchors": ["cpp_utils/include/cpp_utils/event/impl/EventHandler.ipp:48-217", "cpp_utils/include/cpp_utils/wait/impl/WaitHandler.ipp:51-231", "cpp_utils/src/cpp/wait/CounterWaitHandler.cpp:41-155", "cpp_utils/include/cpp_utils/wait/impl/DBQueueWaitHandler.ipp:26-66", "cpp_utils/include/cpp_utils/queue/DBQueue.hpp:47-142", "cpp_utils/include/cpp_utils/collection/database/impl/SafeDatabase.ipp:22-151", "cpp_utils/include/cpp_utils/memory/impl/LesseePtr.ipp:53-92", "cpp_utils/src/cpp/thread_pool/pool/SlotThreadPool.cpp:50-156", "cpp_utils/include/cpp_utils/event/impl/MultipleEventHandler.ipp:28-43", "cpp_utils/src/cpp/event/logging/LogSevereEventHandler.cpp:26-46"]}
{"id": "C200", "title": "Threads do not wait for ever for each other's mutexes", "statement": "However many threads use one EventHandler (PeriodicEventHandler, FileWatcherHandler, StdinEventHandler, LogEventHandler, LogSevereEventHandler), the SignalEventHandlers of a signal with their manager, a MultipleEventHandler with its handlers, a WaitHandler (BooleanWaitHandler, IntWaitHandler, CounterWaitHandler, DBQueueWaitHandler), a DBQueue, a TSafeRandomManager, a SlotThreadPool or an OwnerPtr with its lessees, also from callbacks, predicates, tasks and deleters: there are never threads each of which waits for a mutex that one of them holds, and as long as a thread is in a call, some thread in a call can go on.", "quantifier": "any number of threads and of handlers, any sequences of calls, every interleaving of single accesses and mutex operations, whatever branches are taken", "why_tests_cant": "A deadlock needs the schedule in which each thread has just taken its first mutex; tests hardly ever meet it, and not seeing one does not show that there is none.", "anchors": ["cpp_utils/include/cpp_utils/event/impl/EventHandler.ipp:48-217", "cpp_utils/src/cpp/event/PeriodicEventHandler.cpp:60-117", "cpp_utils/include/cpp_utils/event/impl/SignalManager.ipp:79-177", "cpp_utils/include/cpp_utils/event/impl/SignalEventHandler.ipp:59-83", "cpp_utils/include/cpp_utils/event/impl/MultipleEventHandler.ipp:28-43", "cpp_utils/include/cpp_utils/wait/impl/WaitHandler.ipp:51-231", "cpp_utils/include/cpp_utils/wait/impl/DBQueueWaitHandler.ipp:26-66", "cpp_utils/include/cpp_utils/queue/DBQueue.hpp:47-142", "cpp_utils/src/cpp/thread_pool/pool/SlotThreadPool.cpp:64-156", "cpp_utils/include/cpp_utils/memory/impl/InternalPtrData.ipp:110-120"]}
{"id": "C201", "title": "Builds in the source directory are refused, and no others", "statement": "A project whose modules call configure_project is not configured if the build directory is the source directory, and is configured otherwise, whichever way cmake is called and whatever was tried before; so no build system is generated in the source directory of a module.", "quantifier": "every source and build directory, every way of calling cmake, every sequence of calls, every list of modules", "why_tests_cant": "A test would have to run cmake on the computers of all users, with their links, caches and layouts; that earlier calls change later ones is seen only by sequences of calls.", "anchors": ["cmake_utils/cmake/project/in_source_build_prevention.cmake:15-31", "cmake_utils/cmake/project/configure_project.cmake:49-52"]}
