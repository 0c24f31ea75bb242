{
 "claims": [
  {
   "property": "C01",
   "status": "proved",
   "theorems": [
    "Verif.Math.C01_isEven",
    "Verif.Math.C01_isPowerOf2"
   ],
   "note": ""
  },
  {
   "property": "C02",
   "status": "proved",
   "theorems": [
    "Verif.Math.C02_fastModule",
    "Verif.Math.C02_fastDivision",
    "Verif.Math.C02_divisor_zero"
   ],
   "note": ""
  },
  {
   "property": "C03",
   "status": "proved",
   "theorems": [
    "Verif.Math.C03_fastExponential",
    "Verif.Math.C03_fastExponential_exact"
   ],
   "note": ""
  },
  {
   "property": "C04",
   "status": "partial",
   "theorems": [
    "Verif.Math.C04_exact",
    "Verif.Math.C04_negation",
    "Verif.Math.C04_partial"
   ],
   "note": "C04_negation: C04 is false: the two-term progression 2^30 - 1, 2^30 + 1 has sum 2^31, which fits in 32 bits, but 0 is returned. C04_partial: C04, what holds of the code: the result is the sum exactly when the sum is below 2^31 (the full claim would have 2^32 here)."
  },
  {
   "property": "C05",
   "status": "proved",
   "theorems": [
    "Verif.Strings.C05_split",
    "Verif.Strings.C05_unique"
   ],
   "note": ""
  },
  {
   "property": "C06",
   "status": "proved",
   "theorems": [
    "Verif.Strings.C06_splitSet"
   ],
   "note": ""
  },
  {
   "property": "C07",
   "status": "partial",
   "theorems": [
    "Verif.Strings.C07_negation",
    "Verif.Strings.C07_partial"
   ],
   "note": "C07_negation: C07 is false: with the empty delimiter split_string never returns. C07_partial: C07, what holds: it returns for every source and every non-empty delimiter (missing: the empty delimiter, which hangs)."
  },
  {
   "property": "C08",
   "status": "proved",
   "theorems": [
    "Verif.Strings.C08_replaceFirst"
   ],
   "note": ""
  },
  {
   "property": "C09",
   "status": "partial",
   "theorems": [
    "Verif.Strings.C09_negation",
    "Verif.Strings.C09_negation_empty",
    "Verif.Strings.C09_result",
    "Verif.Strings.C09_terminates_shrinking_partial",
    "Verif.Strings.C09_simultaneous_partial",
    "Verif.Strings.C09_negation_rescan"
   ],
   "note": "C09_negation: C09 is false (termination): if the pattern occurs and the replacement contains the pattern, replace_all never returns. C09_negation_empty: C09 is false (termination): the empty pattern never returns. C09_terminates_shrinking_partial: C09, termination for shrinking replacements. (Missing from the full claim: the diverging inputs of C09_negation.) C09_simultaneous_partial: C09, ordinary behaviour: if the replacement shares no character with the pattern (and is non-empty, or the pattern is a single character), replace_all returns the simultaneous left-to-right replacement and the number of occurrences cut. (Missing from the full claim: other overlapping patterns, see the next theorem.) C09_negation_rescan: C09 is also false in its second half: the code re-scans, so \"aab\" with \"ab\" -> \"b\" gives \"b\" in two steps, not the simultaneous replacement \"ab\"."
  },
  {
   "property": "C10",
   "status": "proved",
   "theorems": [
    "Verif.Strings.C10_strip"
   ],
   "note": ""
  },
  {
   "property": "C11",
   "status": "proved",
   "theorems": [
    "Verif.Case.C11_lowercase",
    "Verif.Case.C11_uppercase",
    "Verif.Case.C11_laws"
   ],
   "note": ""
  },
  {
   "property": "C12",
   "status": "partial",
   "theorems": [
    "Verif.NumFormat.C12_ub_iff",
    "Verif.NumFormat.C12_negation_negative",
    "Verif.NumFormat.C12_refused_iff",
    "Verif.NumFormat.C12_written",
    "Verif.NumFormat.C12_negation_ten",
    "Verif.NumFormat.C12_padding",
    "Verif.NumFormat.C12_negation",
    "Verif.NumFormat.C12_guard_partial"
   ],
   "note": "C12_negation_negative: C12, negation: every negative int is refused for up to 9 characters, however short its text. C12_negation_ten: C12, negation: with ten characters, a value of ten digits is refused from 1410065408 on. C12_negation: C12 is false: (a) 2147483647 has ten digits but is rejected for ten characters, because 10^10 wraps; (b) -5 is rejected for four characters; (c) 32 characters is a division by zero; (d) zero characters accept \"0\"; (e) negative numbers are padded in front of the sign. C12_guard_partial: C12, what holds of the guard: for non-negative int values and 1 to 9 characters the call throws exactly when the decimal representation is longer, and otherwise pads. (Missing: negative values, and widths 0 and above 9, see C12_negation.)"
  },
  {
   "property": "C13",
   "status": "proved",
   "theorems": [
    "Verif.Base64.C13_roundtrip",
    "Verif.Base64.C13_injective"
   ],
   "note": ""
  },
  {
   "property": "C14",
   "status": "proved",
   "theorems": [
    "Verif.Base64.C14_encode_rfc4648",
    "Verif.Base64.C14_length",
    "Verif.Base64.C14_alphabet",
    "Verif.Base64.C14_decode_stops"
   ],
   "note": ""
  },
  {
   "property": "C15",
   "status": "partial",
   "theorems": [
    "Verif.Base64.C15_encode_exact",
    "Verif.Base64.C15_negation",
    "Verif.Base64.C15_encode_partial",
    "Verif.Base64.C15_decode_exact",
    "Verif.Base64.C15_negation_decode"
   ],
   "note": "C15_negation: C15 is false under C++14/17: encoding the four bytes 1,0,0,0 shifts 2^24 left by 8. C15_encode_partial: C15, what holds: inputs of at most 3 bytes are free of undefined behaviour (missing: longer inputs, see C15_encode_exact). C15_negation_decode: C15 is false for decoding too: \"BAAAAAA\" has more than 26 significant bits before its last digit."
  },
  {
   "property": "C16",
   "status": "partial",
   "theorems": [
    "Verif.Bytes.C16_malformed",
    "Verif.Bytes.C16_unknown_unit",
    "Verif.Bytes.C16_case",
    "Verif.Bytes.C16_ub_iff",
    "Verif.Bytes.C16_negation_ub",
    "Verif.Bytes.C16_too_large_partial",
    "Verif.Bytes.C16_accepts_partial",
    "Verif.Bytes.C16_negation_rejected",
    "Verif.Bytes.C16_exact",
    "Verif.Bytes.C16_close",
    "Verif.Bytes.C16_negation_fraction",
    "Verif.Bytes.C16_out_of_range_iff",
    "Verif.Bytes.C16_negation_tiny"
   ],
   "note": "C16_negation_ub: C16, undefined behaviour: 2^64 bytes pass the guard. C16_too_large_partial: C16: a quantity that does not fit in 64 bits is refused, or (in the band) undefined. Missing: inside the band nothing is refused. C16_accepts_partial: C16: a number of units that fits, rounded down to whole units, is accepted. Missing: numbers with a fraction beyond the last whole unit that fits (C16_negation_rejected), and numbers too small for a normal double, which std::stod may refuse. C16_negation_rejected: C16: 18446.5 PB fit in 64 bits and are refused: the guard divides integers. C16_negation_fraction: A fraction that is not a double can lose a whole byte: 1.005 KB are 1004 bytes. C16_negation_tiny: C16, negation: a number of units with 307 zeros or more between the point and a digit, much less than a byte in every unit, is not 0 bytes: to_bytes throws std::out_of_range, whatever the letters that follow."
  },
  {
   "property": "C17",
   "status": "partial",
   "theorems": [
    "Verif.Bytes.C17_text",
    "Verif.Bytes.C17_range_partial",
    "Verif.Bytes.C17_percent_partial",
    "Verif.Bytes.C17_negation_carry",
    "Verif.Bytes.C17_negation_percent"
   ],
   "note": "C17_range_partial: C17: the number printed is below 1000 as long as the count is at most 999.99 units. Missing: above that it is rounded to 1000 (C17_negation_carry). C17_percent_partial: C17: below 10^15 the quantity printed differs from the count by at most 1% of the unit. Missing: counts of 10^15 and more, where the quotient is not precise enough (C17_negation_percent). C17_negation_carry: C17, violated: from 999.996 units on the number printed is 1000. C17_negation_percent: C17, violated: 9010000000000001 bytes are printed as 9 PB, off by more than 1% of the unit."
  },
  {
   "property": "C18",
   "status": "partial",
   "theorems": [
    "Verif.Formatter.C18_negation",
    "Verif.Formatter.C18_prefix_partial",
    "Verif.Formatter.C18_partial"
   ],
   "note": "C18_negation: C18 is false: a streamed NUL character cuts the result. C18_prefix_partial: C18, what holds: the concatenation up to the first NUL ... C18_partial: ... hence the whole concatenation exactly when no piece contains NUL (the full claim has no such hypothesis)."
  },
  {
   "property": "C19",
   "status": "partial",
   "theorems": [
    "Verif.PtrSet.C19_exact",
    "Verif.PtrSet.C19_negation_same",
    "Verif.PtrSet.C19_negation_repeated",
    "Verif.PtrSet.C19_contains",
    "Verif.PtrSet.C19_negation",
    "Verif.PtrSet.C19_partial"
   ],
   "note": "C19_negation_same: C19, negation: two sets with the same values but not the same number of pointers are never equal. C19_negation_repeated: C19, negation: n + 1 pointers to one value are equal to every set of n + 1 pointers one of which points to that value. C19_negation: C19 is false for are_set_of_ptr_equal: with two pointers to equal values it is neither the equality of the value sets nor symmetric. C19_partial: C19, what holds: for sets without two pointers to equal values, are_set_of_ptr_equal is equality of the sets of values (missing: sets with value duplicates)."
  },
  {
   "property": "C20",
   "status": "proved",
   "theorems": [
    "Verif.File.C20_fileToStrings",
    "Verif.File.C20_lines_exist",
    "Verif.File.C20_fileToString"
   ],
   "note": ""
  },
  {
   "property": "C21",
   "status": "proved",
   "theorems": [
    "Verif.Mangling.C21_roundtrip",
    "Verif.Mangling.C21_changes",
    "Verif.Mangling.C21_injective",
    "Verif.Mangling.C21_demangle"
   ],
   "note": ""
  },
  {
   "property": "C22",
   "status": "proved",
   "theorems": [
    "Verif.Mangling.C22_roundtrip",
    "Verif.Mangling.C22_roundtrip_plain",
    "Verif.Mangling.C22_unchanged",
    "Verif.Mangling.C22_demangle_exact"
   ],
   "note": ""
  },
  {
   "property": "C23",
   "status": "partial",
   "theorems": [
    "Verif.Mangling.C23_negation",
    "Verif.Mangling.C23_partial"
   ],
   "note": "C23_negation: C23 is false: the empty string makes demangle_if_ros_type read out of range. C23_partial: C23, what holds: every non-empty argument gives a result."
  },
  {
   "property": "C24",
   "status": "partial",
   "theorems": [
    "Verif.Mangling.C24_negation_all",
    "Verif.Mangling.C24_roundtrip_iff",
    "Verif.Mangling.C24_negation",
    "Verif.Mangling.C24_mangle_exact",
    "Verif.Mangling.C24_roundtrip_partial"
   ],
   "note": "C24_negation_all: C24, negation: no service name round-trips but \"/\" followed by one segment; every name with a namespace, and every name without the first slash, is lost. C24_negation: C24 is false: a service name with a namespace is mangled to the empty string, which does not demangle to it. C24_roundtrip_partial: C24, what holds: services without a namespace round-trip. (Missing: names with more than one segment, see C24_negation.)"
  },
  {
   "property": "C25",
   "status": "proved",
   "theorems": [
    "Verif.Mangling.C25_request",
    "Verif.Mangling.C25_reply",
    "Verif.Mangling.C25_generic"
   ],
   "note": ""
  },
  {
   "property": "C26",
   "status": "proved",
   "theorems": [
    "Verif.Mangling.C26_roundtrip",
    "Verif.Mangling.C26_rejects",
    "Verif.Mangling.C26_srv_package"
   ],
   "note": ""
  },
  {
   "property": "C27",
   "status": "partial",
   "theorems": [
    "Verif.Mangling.C27_exact",
    "Verif.Mangling.C27_negation_all",
    "Verif.Mangling.C27_negation_order",
    "Verif.Mangling.C27_negation",
    "Verif.Mangling.C27_accepts",
    "Verif.Mangling.C27_partial"
   ],
   "note": "C27_negation_all: C27, negation: whatever follows \"_Request_\", a type with something before \"dds_::\" is accepted. C27_negation_order: C27, negation: a type whose last \"_Request_\" stands before its \"dds_::\" is accepted as well, and then everything behind \"dds_::\" is given back, with no suffix taken off. C27_negation: C27 is false: a name with \"_Request_\" in the middle is accepted. C27_partial: C27, what holds: among the names where \"_Request_\" does not occur before the end, only names that contain \"dds_::\" and end in \"_Request_\" or \"_Response_\" are accepted. (Missing: names with \"_Request_\" elsewhere, see C27_negation.)"
  },
  {
   "property": "C28",
   "status": "partial",
   "theorems": [
    "Verif.Fuzzy.C28_exact",
    "Verif.Fuzzy.C28_equivalence",
    "Verif.Fuzzy.C28_negation",
    "Verif.Fuzzy.C28_doc_partial"
   ],
   "note": "C28_negation: C28, the documented condition is not what == computes: two values set to the same value with different certainty are different, and two valid default values 1 and 2 are equal. C28_doc_partial: C28, where the documentation holds: objects that are invalid or set, set ones with the same level. (Missing: valid objects that are not set, and set objects of different levels.)"
  },
  {
   "property": "C29",
   "status": "proved",
   "theorems": [
    "Verif.Fuzzy.C29_history",
    "Verif.Fuzzy.C29_levels",
    "Verif.Fuzzy.C29_names"
   ],
   "note": ""
  },
  {
   "property": "C30",
   "status": "proved",
   "theorems": [
    "Verif.LogConfig.C30_verbosity",
    "Verif.LogConfig.C30_filter",
    "Verif.LogConfig.C30_monotone",
    "Verif.LogConfig.C30_filter_throws"
   ],
   "note": ""
  },
  {
   "property": "C31",
   "status": "proved",
   "theorems": [
    "Verif.LogConfig.C31_consume",
    "Verif.LogConfig.C31_monotone"
   ],
   "note": ""
  },
  {
   "property": "C32",
   "status": "partial",
   "theorems": [
    "Verif.Tree.C32_negation",
    "Verif.Tree.C32_always_zero",
    "Verif.Tree.C32_leaf_partial"
   ],
   "note": "C32_negation: C32 is false: a tree with a branch has height 1 but depth 0. C32_leaf_partial: C32, what holds: depth is the height of a leaf. (Missing: every other tree.)"
  },
  {
   "property": "C33",
   "status": "proved",
   "theorems": [
    "Verif.Tree.C33_allNodes",
    "Verif.Tree.C33_leaf",
    "Verif.Tree.C33_addBranch"
   ],
   "note": ""
  },
  {
   "property": "C34",
   "status": "proved",
   "theorems": [
    "Verif.Builder.C34_value",
    "Verif.Builder.C34_find"
   ],
   "note": ""
  },
  {
   "property": "C35",
   "status": "proved",
   "theorems": [
    "Verif.Builder.C35_expands",
    "Verif.Builder.C35_roundtrip"
   ],
   "note": ""
  },
  {
   "property": "C36",
   "status": "proved",
   "theorems": [
    "Verif.Qos.C36_text",
    "Verif.Qos.C36_injective"
   ],
   "note": ""
  },
  {
   "property": "C37",
   "status": "proved",
   "theorems": [
    "Verif.ReturnCode.C37_compare",
    "Verif.ReturnCode.C37_convert",
    "Verif.ReturnCode.C37_print"
   ],
   "note": ""
  },
  {
   "property": "C38",
   "status": "proved",
   "theorems": [
    "Verif.Singleton.C38_history",
    "Verif.Singleton.C38_once"
   ],
   "note": ""
  },
  {
   "property": "C39",
   "status": "proved",
   "theorems": [
    "Verif.Timer.C39_elapsed",
    "Verif.Timer.C39_playing"
   ],
   "note": ""
  },
  {
   "property": "C40",
   "status": "proved",
   "theorems": [
    "Verif.Random.C40_sequence",
    "Verif.Random.C40_construction",
    "Verif.Random.C40_seeded"
   ],
   "note": ""
  },
  {
   "property": "C41",
   "status": "partial",
   "theorems": [
    "Verif.History.C41_ub_iff",
    "Verif.History.C41_negation",
    "Verif.History.C41_safe_partial"
   ],
   "note": "C41_negation: C41: the code does leave the history: two get_next_command on a new object. C41_safe_partial: C41 (the code is safe only if get_next_command is called at most once before the first non-empty command; C41_negation shows the other case): then every sequence of calls returns only added commands and blanks. Missing for the full property: the second get_next_command on an empty history."
  },
  {
   "property": "C42",
   "status": "proved",
   "theorems": [
    "Verif.History.C42_cursor",
    "Verif.History.C42_start",
    "Verif.History.C42_prev_after_add",
    "Verif.History.C42_undo"
   ],
   "note": ""
  },
  {
   "property": "C43",
   "status": "partial",
   "theorems": [
    "Verif.Editor.C43_editor_partial",
    "Verif.Editor.C43_fresh_partial",
    "Verif.Editor.C43_negation"
   ],
   "note": "C43_editor_partial: C43: once the history holds a command, every sequence of key presses is handled like the ideal editor does it: same line, same cursor, same lines handed to the callback; the cursor stays within the line. Missing for the full property: a handler without history (C43_fresh_partial, C43_negation) and an output without width (C78_negation). C43_fresh_partial: C43 for a new handler: like the ideal editor unless the history is accessed out of range. C43_negation: C43 fails for a new handler: pressing \"down\" twice accesses the empty history out of range."
  },
  {
   "property": "C44",
   "status": "partial",
   "theorems": [
    "Verif.Editor.C44_negation",
    "Verif.Editor.C44_idle_partial"
   ],
   "note": "C44_negation: C44 fails: when the input ends in the middle of a line (or before a line the thread may still read) the thread keeps reading for ever; it adds one character per iteration and never hands a line over. C44_idle_partial: C44 holds only in this form: a thread that has read all the lines it was asked for reads nothing more, whatever is left of the input."
  },
  {
   "property": "C45",
   "status": "partial",
   "theorems": [
    "Verif.CommandReader.C45_roundtrip_partial",
    "Verif.CommandReader.C45_open",
    "Verif.CommandReader.C45_nonempty",
    "Verif.CommandReader.C45_negation",
    "Verif.CommandReader.C45_negation_all"
   ],
   "note": "C45_roundtrip_partial: C45: typing arguments, each a word or a quoted phrase, gives back exactly those arguments. Missing for the full property: quoted phrases that start with a space (see C45_negation). C45_negation: C45 fails for a quoted phrase that starts with a space: the opening quote alone is taken for a complete (empty) phrase. C45_negation_all: C45, negation: every quoted phrase that starts with a space and does not end with one is taken for an empty argument followed by its words, the last one with the closing quote."
  },
  {
   "property": "C46",
   "status": "proved",
   "theorems": [
    "Verif.EventHandler.C46_refines",
    "Verif.EventHandler.C46_once",
    "Verif.EventHandler.C46_count",
    "Verif.EventNested.C46_nested"
   ],
   "note": ""
  },
  {
   "property": "C47",
   "status": "proved",
   "theorems": [
    "Verif.EventHandler.C47_no_lost_wakeup",
    "Verif.EventHandler.C47_wakes",
    "Verif.EventHandler.C47_result",
    "Verif.EventHandler.C47_leaves"
   ],
   "note": ""
  },
  {
   "property": "C48",
   "status": "partial",
   "theorems": [
    "Verif.EventHandler.C48_barrier_partial",
    "Verif.EventHandler.C48_silent",
    "Verif.EventHandler.C48_until_set",
    "Verif.EventHandler.C48_returns",
    "Verif.EventHandler.C48_negation"
   ],
   "note": "C48_barrier_partial: C48: when unset_callback returns (and from the end of its loop on) no callback is set or being executed, and no thread is asleep in wait_for_event or about to look at the condition again. What is missing: a thread may be on its way into or out of wait_for_event, see C48_negation. C48_negation: C48 fails for threads on their way: unset_callback can return while a thread that entered wait_for_event before is about to lock wait_mutex_ (thread 0) and another one is about to read the count (thread 1); both use members of the handler, which its owner may destroy now."
  },
  {
   "property": "C49",
   "status": "partial",
   "theorems": [
    "Verif.SignalManager.C49_rounds",
    "Verif.SignalManager.C49_round",
    "Verif.SignalManager.C49_log",
    "Verif.SignalManager.C49_handled_partial",
    "Verif.SignalManager.C49_negation"
   ],
   "note": "C49_handled_partial: C49: under fair scheduling and while the manager lives, signals that are counted get a further round of callbacks, when the handler thread is not between its last look at the counter and its sleep, and also when it sleeps and the notification of a signal is to come. What is missing: a signal that arrives in that window is not handled (before another one arrives), see C49_negation. C49_negation: C49 fails: a signal that arrives after the handler thread has seen that there is none and before it sleeps is not handled: there is a fair execution in which a callback is registered, one signal is delivered, the manager lives, and no round ever starts."
  },
  {
   "property": "C50",
   "status": "proved",
   "theorems": [
    "Verif.SignalManager.C50_register",
    "Verif.SignalManager.C50_unregister",
    "Verif.SignalManager.C50_called",
    "Verif.SignalManager.C50_wrap"
   ],
   "note": ""
  },
  {
   "property": "C51",
   "status": "proved",
   "theorems": [
    "Verif.WaitHandler.C51_int",
    "Verif.WaitHandler.C51_bool",
    "Verif.WaitHandler.C51_int_update",
    "Verif.WaitHandler.C51_reason",
    "Verif.WaitHandler.C51_arguments",
    "Verif.WaitHandler.C51_disabled"
   ],
   "note": ""
  },
  {
   "property": "C52",
   "status": "proved",
   "theorems": [
    "Verif.WaitHandler.C52_no_lost_wakeup",
    "Verif.WaitHandler.C52_int",
    "Verif.WaitHandler.C52_bool",
    "Verif.WaitHandler.C52_wakes"
   ],
   "note": ""
  },
  {
   "property": "C53",
   "status": "partial",
   "theorems": [
    "Verif.WaitHandler.C53_counter",
    "Verif.WaitHandler.C53_drained_partial",
    "Verif.WaitHandler.C53_status",
    "Verif.WaitHandler.C53_returns",
    "Verif.WaitHandler.C53_negation"
   ],
   "note": "C53_drained_partial: C53: when blocking_disable returns (and from the end of its loop on) the handler is disabled and no thread is asleep in a wait or about to look at its predicate again. What is missing: a thread may still be on its way out, see C53_negation. C53_negation: C53 fails for threads on their way out: blocking_disable can return while a thread is still inside wait, holding the mutex of the handler (thread 1 registers, thread 0 disables and notifies, thread 1 decrements the counter, thread 0 reads 0 and returns)."
  },
  {
   "property": "C54",
   "status": "proved",
   "theorems": [
    "Verif.Counter.C54_conservation",
    "Verif.Counter.C54_increments",
    "Verif.Counter.C54_grant",
    "Verif.Counter.C54_reason"
   ],
   "note": ""
  },
  {
   "property": "C55",
   "status": "proved",
   "theorems": [
    "Verif.Counter.C55_no_lost_wakeup",
    "Verif.Counter.C55_chain",
    "Verif.Counter.C55_granted",
    "Verif.Counter.C55_disabled_wakes"
   ],
   "note": ""
  },
  {
   "property": "C56",
   "status": "partial",
   "theorems": [
    "Verif.Counter.C56_negation_disable",
    "Verif.Counter.C56_negation_rising",
    "Verif.Counter.C56_wakes_partial",
    "Verif.Counter.C56_returns_partial"
   ],
   "note": "C56_negation_disable: C56: the threshold is missed when the handler is disabled: with a thread in wait_threshold_reached blocking_disable (and the destructor, which calls it) never returns, in a fair execution. C56_negation_rising: C56: the threshold is missed when the counter rises to it: thread 0 sleeps for the threshold 1, the counter is incremented from 0 to 1 and nothing is left that would wake it. C56_wakes_partial: C56, what holds: a handler that starts at or above its threshold (as ConsumerWaitHandler with threshold 0 does) lets no thread sleep in wait_threshold_reached while the counter is at the threshold, as long as the counter has not wrapped around. Missing: thresholds above the initial value, see C56_negation_rising, and disabling, see C56_negation_disable. C56_returns_partial: C56, what holds: if nobody uses wait_threshold_reached, then under fair scheduling every enable, disable, blocking_disable and stop_and_continue returns. Missing: calls of wait_threshold_reached, see C56_negation_disable."
  },
  {
   "property": "C57",
   "status": "proved",
   "theorems": [
    "Verif.Counter.C57_fifo",
    "Verif.Counter.C57_returned",
    "Verif.Counter.C57_returned_only",
    "Verif.Counter.C57_produced"
   ],
   "note": ""
  },
  {
   "property": "C58",
   "status": "partial",
   "theorems": [
    "Verif.Counter.C58_never_empty_partial",
    "Verif.Counter.C58_negation",
    "Verif.Counter.C58_negation_all"
   ],
   "note": "C58_never_empty_partial: C58, what holds: a consumer constructed with the initial value 0 (the default) never throws the exception for an empty queue, and the counter together with the waits granted and not yet served never exceeds the elements stored. Missing: other initial values, see C58_negation. C58_negation: C58 fails for other initial values: consume on a new consumer with initial value 1 throws the exception for an inconsistent state. C58_negation_all: C58, negation: for every initial value but 0, consume on a new consumer throws the exception for an inconsistent state (the threshold is 0, ConsumerWaitHandler.ipp:28-35)."
  },
  {
   "property": "C59",
   "status": "proved",
   "theorems": [
    "Verif.DBQueue.C59_front",
    "Verif.DBQueue.C59_both_empty",
    "Verif.DBQueue.C59_push_hidden",
    "Verif.DBQueue.C59_swap_delivers",
    "Verif.DBQueue.C59_order",
    "Verif.DBQueue.C59_complete",
    "Verif.DBQueue.C59_clear"
   ],
   "note": ""
  },
  {
   "property": "C60",
   "status": "proved",
   "theorems": [
    "Verif.SlotThreadPool.C60_once",
    "Verif.SlotThreadPool.C60_conservation",
    "Verif.SlotThreadPool.C60_task",
    "Verif.SlotThreadPool.C60_kept",
    "Verif.SlotThreadPool.C60_emit",
    "Verif.SlotThreadPool.C60_emitted_only",
    "Verif.SlotThreadPool.C60_slot",
    "Verif.SlotThreadPool.C60_started_only",
    "Verif.SlotThreadPool.C60_no_abort"
   ],
   "note": ""
  },
  {
   "property": "C61",
   "status": "partial",
   "theorems": [
    "Verif.SlotThreadPool.C61_never_again",
    "Verif.SlotThreadPool.C61_queue_stays_disabled",
    "Verif.SlotThreadPool.C61_negation",
    "Verif.SlotThreadPool.C61_kept_partial"
   ],
   "note": "C61_negation: C61 fails: a pool that is enabled, disabled and enabled again, in a fair execution in which every call returns, never runs the task emitted then, although it is enabled and has a thread. C61_kept_partial: C61, what holds: disabling removes nothing from the queue: the steps of a thread within disable() leave the queue and the records of emits and executions alone. Missing: that a later enable() makes the pool work on them, see C61_negation."
  },
  {
   "property": "C62",
   "status": "partial",
   "theorems": [
    "Verif.SlotThreadPool.C62_negation",
    "Verif.SlotThreadPool.C62_taken_partial"
   ],
   "note": "C62_negation: C62 fails: wait_all_consumed returns condition_met while the only task emitted, before the call and from the same thread, has not even been started. C62_taken_partial: C62, what holds: when wait_all_consumed returns condition_met (and fewer than 2^32 tasks are queued), every task left in the queue is already promised to a worker that is about to take it, or belongs to an emit that has not returned. Missing: that the tasks have been executed, see C62_negation."
  },
  {
   "property": "C63",
   "status": "proved",
   "theorems": [
    "Verif.SafeDatabase.C63_sequential",
    "Verif.SafeDatabase.C63_call"
   ],
   "note": ""
  },
  {
   "property": "C64",
   "status": "partial",
   "theorems": [
    "Verif.SafeDatabase.C64_frozen_partial",
    "Verif.SafeDatabase.C64_valid_partial",
    "Verif.SafeDatabase.C64_deref_partial",
    "Verif.SafeDatabase.C64_advance_partial",
    "Verif.SafeDatabase.C64_negation_begin",
    "Verif.SafeDatabase.C64_negation_race",
    "Verif.SafeDatabase.C64_negation_copy"
   ],
   "note": "C64_frozen_partial: C64: while an iterator exists no element changes; copies of iterators excluded (they hold no lock, see C64_negation_copy). C64_valid_partial: C64: every iterator denotes an element or the end; iterators from begin (C64_negation_begin) and copies excluded. C64_deref_partial: C64, use of an iterator: *it gives the key it is at and the value this key has, before and after the call (same exclusions). C64_advance_partial: C64, use of an iterator: ++it moves it to the next key, or to the end if there is none; nothing changes in the database (same exclusions). C64_negation_begin: begin takes its position before it takes its lock. C64_negation_race: begin reads the map while another thread writes it. C64_negation_copy: A copied iterator has no lock of its own, but releases one."
  },
  {
   "property": "C65",
   "status": "proved",
   "theorems": [
    "Verif.Pool.C65_loan",
    "Verif.Pool.C65_accounting",
    "Verif.Pool.C65_return"
   ],
   "note": ""
  },
  {
   "property": "C66",
   "status": "partial",
   "theorems": [
    "Verif.Pool.C66_excess",
    "Verif.Pool.C66_wrap",
    "Verif.Pool.C66_negation",
    "Verif.Pool.C66_destroy_partial"
   ],
   "note": "C66_negation: C66 is false of clients that return an element twice: while something else is on loan this is not detected, the element is lent to two clients, and the destructor deletes it twice. C66_destroy_partial: C66, what holds: if clients return only what they hold the destructor deletes every element that is not on loan exactly once, and none that is on loan. Missing: clients that return an element twice."
  },
  {
   "property": "C67",
   "status": "proved",
   "theorems": [
    "Verif.OwnerPtr.C67_once",
    "Verif.OwnerPtr.C67_released",
    "Verif.OwnerPtr.C67_call",
    "Verif.OwnerPtr.C67_null",
    "Verif.OwnerPtr.C67_guard",
    "Verif.OwnerPtr.C67_keeps"
   ],
   "note": ""
  },
  {
   "property": "C68",
   "status": "proved",
   "theorems": [
    "Verif.OwnerPtr.C68_held",
    "Verif.OwnerPtr.C68_lease",
    "Verif.OwnerPtr.C68_found",
    "Verif.OwnerPtr.C68_gone",
    "Verif.OwnerPtr.C68_empty",
    "Verif.OwnerPtr.C68_returns"
   ],
   "note": ""
  },
  {
   "property": "C69",
   "status": "partial",
   "theorems": [
    "Verif.OwnerPtr.C69_negation",
    "Verif.OwnerPtr.C69_guarded_partial",
    "Verif.OwnerPtr.C69_owned_partial"
   ],
   "note": "C69_negation: C69 is false: between the end of operator -> (or *), which releases the lock, and the use of the pointer it returned, the owner can delete the datum. C69_guarded_partial: C69, what holds: a use through a guard always finds the datum there (or the guard is empty). Missing: uses of the pointer that operator -> and * of LesseePtr return. C69_owned_partial: C69, what holds: a use through operator -> or * finds the datum if an owner still has it at that moment."
  },
  {
   "property": "C70",
   "status": "partial",
   "theorems": [
    "Verif.OwnerPtr.C70_negation_guard",
    "Verif.OwnerPtr.C70_negation_self",
    "Verif.OwnerPtr.C70_owner_partial",
    "Verif.OwnerPtr.C70_guard_partial",
    "Verif.OwnerPtr.C70_returns_partial"
   ],
   "note": "C70_negation_guard: C70 is false of guards: move-assigning to a guard loses the lock it holds; all guards are destroyed, and the owner blocks in reset() for ever. C70_negation_self: C70 is false of owners: a self-move-assignment destroys the datum. C70_owner_partial: C70, what holds of owners: assigning from another owner (when no lessee has the old datum locked) deletes the old datum, moves the new one, and changes no other owner. Missing: self-assignment. C70_guard_partial: C70, what holds of guards: if guards are not assigned, they release their locks: a thread that waits in reset() can go on as soon as the datum is not used. Missing: assignment of guards. C70_returns_partial: C70, what holds of guards: if guards are not assigned and the datum is unused again and again, every call that releases it (reset(), the destructor of the owner, an assignment to it) returns. Missing: assignment of guards."
  },
  {
   "property": "C71",
   "status": "partial",
   "theorems": [
    "Verif.PyWaitHandler.C71_negation_spin",
    "Verif.PyWaitHandler.C71_drained",
    "Verif.PyWaitHandler.C71_returns_partial",
    "Verif.PyWaitHandler.C71_negation"
   ],
   "note": "C71_negation_spin: C71, negation in general: if a thread is waiting when blocking_disable has got the lock, then blocking_disable never returns, whatever happens: it keeps the lock, and no other thread ever gets it. C71_returns_partial: C71, what holds: under fair scheduling, if no thread is waiting at the moments when blocking_disable gets the lock, every call other than wait returns, blocking_disable included. Missing: blocking_disable while a thread waits, see C71_negation_spin. C71_negation: C71, negation: the caller of blocking_disable and the waiting thread block each other for ever: such a state is reached with one waiting thread, and no continuation leaves it (C71_negation_spin)."
  },
  {
   "property": "C72",
   "status": "partial",
   "theorems": [
    "Verif.PyWaitHandler.C72_reason",
    "Verif.PyWaitHandler.C72_no_lost_wakeup",
    "Verif.PyWaitHandler.C72_wakes_partial",
    "Verif.PyWaitHandler.C72_greater_equal",
    "Verif.PyWaitHandler.C72_greater",
    "Verif.PyWaitHandler.C72_equal",
    "Verif.PyWaitHandler.C72_open",
    "Verif.PyWaitHandler.C72_int_effects",
    "Verif.PyWaitHandler.C72_bool_effects",
    "Verif.PyWaitHandler.C72_status",
    "Verif.PyWaitHandler.C72_negation"
   ],
   "note": "C72_wakes_partial: C72, liveness: under fair scheduling a thread inside a wait, at a moment when its predicate holds or the handler is disabled, returns, unless the predicate becomes false (and the handler enabled) again. Missing: executions in which blocking_disable is called while threads wait, see C72_negation. C72_negation: C71 and C72, negations: thread 0 is inside wait_equal(5) when thread 1 calls blocking_disable. In a fair execution the handler stays disabled, thread 0 does not return and thread 1 does not return."
  },
  {
   "property": "C73",
   "status": "partial",
   "theorems": [
    "Verif.LogSevere.C73_exact_partial",
    "Verif.LogSevere.C73_created",
    "Verif.LogSevere.C73_check_partial",
    "Verif.LogSevere.C73_only",
    "Verif.LogSevere.C73_negation_other",
    "Verif.LogSevere.C73_negation_early",
    "Verif.LogSevere.C73_negation_construct",
    "Verif.LogSevere.C73_negation_wrap"
   ],
   "note": "C73_exact_partial: C73, what holds: from a moment when nothing is queued, a handler with threshold t, enabled and alive, counts exactly the entries at least as severe as t that are logged (modulo 2^32) and keeps exactly these, in order, once the log has been flushed; provided nobody sets the verbosity more severe than t meanwhile. Missing: other handlers with a more severe threshold being created (C73_negation_other), entries that were queued before the handler existed (C73_negation_early) and entries logged while it is being constructed (C73_negation_construct). C73_check_partial: C73, what holds: a LogChecker(t, expected, max) made when nothing is queued says yes exactly when the number of entries at least as severe as t logged since lies between expected and the greater of expected and max; for fewer than 2^32 of them and while nobody sets the verbosity more severe than t. C73_negation_other: C73, negation: a handler for informative entries misses them once another handler, for warnings, was created: the constructor of the latter makes the verbosity of the log more severe. C73_negation_early: C73, negation: a LogChecker counts a warning that was logged before it was created. C73_negation_construct: C73, negation: an entry that another thread logs while the constructor is between enabling the handler and setting the threshold is counted whatever its kind. C73_negation_wrap: C73, negation: after 2^32 errors LogChecker reports that there were none."
  },
  {
   "property": "C74",
   "status": "proved",
   "theorems": [
    "Verif.MultipleEvent.C74_refines",
    "Verif.MultipleEvent.C74_count",
    "Verif.MultipleEvent.C74_child"
   ],
   "note": ""
  },
  {
   "property": "C75",
   "status": "proved",
   "theorems": [
    "Verif.Periodic.C75_construct",
    "Verif.Periodic.C75_silent",
    "Verif.Periodic.C75_stopped",
    "Verif.Periodic.C75_started",
    "Verif.Periodic.C75_one_thread",
    "Verif.Periodic.C75_returns"
   ],
   "note": ""
  },
  {
   "property": "C76",
   "status": "proved",
   "theorems": [
    "Verif.Heritable.C76_refines",
    "Verif.Heritable.C76_write",
    "Verif.Heritable.C76_lifetime",
    "Verif.Heritable.C76_compare"
   ],
   "note": ""
  },
  {
   "property": "C77",
   "status": "partial",
   "theorems": [
    "Verif.TimeUtils.C77_print",
    "Verif.TimeUtils.C77_text_partial",
    "Verif.TimeUtils.C77_negation_text",
    "Verif.TimeUtils.C77_parse_partial",
    "Verif.TimeUtils.C77_date",
    "Verif.TimeUtils.C77_negation_range",
    "Verif.TimeUtils.C77_range_partial",
    "Verif.TimeUtils.C77_monotone"
   ],
   "note": "C77_text_partial: C77 for the timestamps outside the last second but one before 1970 (missing: those, which string_to_timestamp refuses, see C77_negation_text). In every format that shows the whole date, the text of a timestamp is read back as the timestamp without its fraction of a second. C77_negation_text: C77, the full statement fails: the text of a date that exists is refused, because its number of seconds is the error value of timegm. C77_parse_partial: C77. The text of every date that exists and fits in a timestamp, except the second before 1970, is read as the timestamp of that date. C77_negation_range: C77, the full statement fails: a date that exists and is not converted. C77_range_partial: C77 for the years 1678 to 2261 (missing: the other years, where 64 bits of nanoseconds overflow): the conversion is defined and exact."
  },
  {
   "property": "C78",
   "status": "partial",
   "theorems": [
    "Verif.Editor.C78_negation",
    "Verif.Editor.C78_edit_partial"
   ],
   "note": "C78_negation: C78 fails: recalling a stored command when the output has no width (ws_col 0, as for a pipe or an unsized pseudo-terminal) divides by zero. C78_edit_partial: C78 for the other keys: without history recall the width does not matter."
  },
  {
   "property": "C79",
   "status": "partial",
   "theorems": [
    "Verif.EventHandler.C79_false_partial",
    "Verif.EventHandler.C79_negation"
   ],
   "note": "C79_false_partial: C79: if the count of events does not decrease during a call of wait_for_event that returns false, then there was a moment during the call at which no callback was set. What is missing: the hypothesis on the count, which the documentation does not ask for; see C79_negation. C79_negation: C79 fails when the count is reset between the end of the wait and the comparison that makes the result: thread 0 is woken by the event it waited for and still returns false, with the callback set all the time."
  },
  {
   "property": "C80",
   "status": "proved",
   "theorems": [
    "Verif.SignalManager.C80_returns",
    "Verif.SignalManager.C80_silent"
   ],
   "note": ""
  },
  {
   "property": "C81",
   "status": "proved",
   "theorems": [
    "Verif.SlotThreadPool.C81_quiet",
    "Verif.SlotThreadPool.C81_no_start"
   ],
   "note": ""
  },
  {
   "property": "C82",
   "status": "proved",
   "theorems": [
    "Verif.SlotThreadPool.C82_threads"
   ],
   "note": ""
  },
  {
   "property": "C83",
   "status": "proved",
   "theorems": [
    "Verif.Counter.C83_consumed"
   ],
   "note": ""
  },
  {
   "property": "C84",
   "status": "proved",
   "theorems": [
    "Verif.SlotThreadPool.C84_executed"
   ],
   "note": ""
  },
  {
   "property": "C85",
   "status": "proved",
   "theorems": [
    "Verif.SlotThreadPool.C85_disable_returns"
   ],
   "note": ""
  },
  {
   "property": "C86",
   "status": "partial",
   "theorems": [
    "Verif.SafeDatabase.C86_negation",
    "Verif.SafeDatabase.C86_find_partial"
   ],
   "note": "C86_negation: C86 is false with a mutex that lets waiting writers go first: find takes its lock, a writer comes, and the constructor of the iterator, in the same thread, waits for a second lock; nothing can happen any more. C86_find_partial: C86, what holds: with a mutex that lets readers in while writers wait, find returns an iterator, whatever other threads do. Missing: other mutexes, see C86_negation."
  },
  {
   "property": "C87",
   "status": "proved",
   "theorems": [
    "Verif.SafeDatabase.C87_readers",
    "Verif.SafeDatabase.C87_all"
   ],
   "note": ""
  },
  {
   "property": "C88",
   "status": "proved",
   "theorems": [
    "Verif.Pool.C88_allocated",
    "Verif.Pool.C88_config"
   ],
   "note": ""
  },
  {
   "property": "C89",
   "status": "partial",
   "theorems": [
    "Verif.Pool.C89_negation",
    "Verif.Pool.C89_default_partial"
   ],
   "note": "C89_negation: C89 is false: the elements of a derived pool that overrides delete_element_ are deleted with the default version. C89_default_partial: C89, what holds: a pool that does not override delete_element_."
  },
  {
   "property": "C90",
   "status": "partial",
   "theorems": [
    "Verif.OwnerPtr.C90_negation",
    "Verif.OwnerPtr.C90_locked_partial"
   ],
   "note": "C90_negation: C90 is false: operator bool of a lessee reads without lock what reset() of the owner writes. C90_locked_partial: C90, what holds: the validity is not read while it is written by the functions that take the lock (lock with exception, ->, *), nor through a guard."
  },
  {
   "property": "C91",
   "status": "partial",
   "theorems": [
    "Verif.PyWaitHandler.C91_released_partial",
    "Verif.PyWaitHandler.C91_negation"
   ],
   "note": "C91_released_partial: C91, what holds: under fair scheduling disable (without later enable) releases every thread that is waiting. Missing: disable followed by enable, see C91_negation, and executions in which blocking_disable is called while threads wait. C91_negation: C91, negation: thread 0 waits; thread 1 calls disable, which returns, and enable. Thread 0 does not return from its wait, in a fair execution."
  },
  {
   "property": "C92",
   "status": "partial",
   "theorems": [
    "Verif.PyWaitHandler.C92_negation",
    "Verif.PyWaitHandler.C92_count_partial",
    "Verif.PyWaitHandler.C92_raise"
   ],
   "note": "C92_negation: C92, negation: after one wait whose predicate raised an exception no thread is inside a call, but blocking_disable never returns. C92_count_partial: C92, what holds: the counter of waiting threads is the number of threads inside a wait (having counted themselves and not yet left) plus the number of waits that ended with an exception. Missing: the latter should not be counted, see C92_negation."
  },
  {
   "property": "C93",
   "status": "partial",
   "theorems": [
    "Verif.LogDestroy.C93_negation",
    "Verif.LogDestroy.C93_alive_partial",
    "Verif.LogDestroy.C93_in_use_partial",
    "Verif.LogDestroy.C93_silent_partial"
   ],
   "note": "C93_negation: C93, negation: the thread of the log is about to put an entry into entries_consumed_, which the destructor has already destroyed. C93_alive_partial: C93, what holds: while a thread is inside consume_, the callback it was called through and the members of EventHandler exist. Missing: entries_consumed_, see C93_negation. C93_in_use_partial: C93, what holds: as long as no destructor has begun, everything an entry is handed to exists. C93_silent_partial: C93, what holds: once the destructor has returned, no entry reaches the handler any more."
  },
  {
   "property": "C94",
   "status": "partial",
   "theorems": [
    "Verif.Heritable.C94_class_partial",
    "Verif.Heritable.C94_negation"
   ],
   "note": "C94_class_partial: C94, partial. As long as every conversion goes from a class to itself or a base of it, the object of a Heritable<T> is a T, so casting it to T or a base of T succeeds. Missing: the other conversions that compile. C94_negation: C94, negation. A Heritable<Base> made with a Base can be copied to a Heritable<Derived>, and a Heritable<Derived> can be made with a pointer to a Base: both compile (static_pointer_cast and static_cast), no check is made, and the result refers to an object that is not a Derived."
  },
  {
   "property": "C95",
   "status": "partial",
   "theorems": [
    "Verif.Periodic.C95_negation_timer",
    "Verif.Periodic.C95_negation_simulate",
    "Verif.Periodic.C95_negation_change",
    "Verif.Periodic.C95_change_partial"
   ],
   "note": "C95_negation_timer: C95, negation: a callback that unsets itself, called by the timer thread, waits forever for periodic_wait_mutex_, which the timer thread itself holds; nobody takes any step any more, whatever is called. C95_negation_simulate: C95, negation: a callback that unsets itself, called by simulate_event_occurred, deadlocks with the timer thread when the period ends at that moment: each holds a mutex the other one needs. C95_negation_change: C95, negation: a callback that calls set_callback, called by the timer thread, deadlocks with a client that calls unset_callback (or the destructor) at that moment. C95_change_partial: C95, what holds: while no client calls set_callback or unset_callback, a callback that calls set_callback returns, under fair scheduling. Missing: clients that set or unset at the same time (C95_negation_change), callbacks that unset (C95_negation_timer, C95_negation_simulate)."
  },
  {
   "property": "C96",
   "status": "proved",
   "theorems": [
    "Verif.Periodic.C96_only_set",
    "Verif.Periodic.C96_serial",
    "Verif.Periodic.C96_spacing",
    "Verif.Periodic.C96_ticks"
   ],
   "note": ""
  },
  {
   "property": "C97",
   "status": "partial",
   "theorems": [
    "Verif.TimeUtils.C97_letters",
    "Verif.TimeUtils.C97_fields",
    "Verif.TimeUtils.C97_negation_day",
    "Verif.TimeUtils.C97_negation_short",
    "Verif.TimeUtils.C97_negation_trailing",
    "Verif.TimeUtils.C97_rejects_partial"
   ],
   "note": "C97_negation_day: C97, the full statement fails: a day that does not exist is read as another day. C97_negation_short: C97, the full statement fails: a year alone is read as the last day of the year before. C97_negation_trailing: C97, the full statement fails: what follows the date is ignored. C97_rejects_partial: C97 for six numbers of the right width (missing: shorter texts, days 29 to 31 of shorter months, text after the date): if one of them is outside the range of its field the text is refused."
  },
  {
   "property": "C98",
   "status": "proved",
   "theorems": [
    "Verif.TimeUtils.C98_today"
   ],
   "note": ""
  },
  {
   "property": "C99",
   "status": "proved",
   "theorems": [
    "Verif.TimeUtils.C99_nearest",
    "Verif.TimeUtils.C99_idempotent"
   ],
   "note": ""
  },
  {
   "property": "C100",
   "status": "partial",
   "theorems": [
    "Verif.TimeUtils.C100_negation_all",
    "Verif.TimeUtils.C100_negation",
    "Verif.TimeUtils.C100_second_partial"
   ],
   "note": "C100_negation_all: C100, negation: every timestamp before 1970 with a fraction of a second is shown as the next second, in every format. C100_negation: C100, the full statement fails: half a second before 1970 is shown as 1970. C100_second_partial: C100 from 1970 on (missing: earlier timestamps with a fraction of a second, which are shown as the next second). The date shown is that of the second in which the timestamp lies."
  },
  {
   "property": "C101",
   "status": "partial",
   "theorems": [
    "Verif.Bytes.C101_small",
    "Verif.Bytes.C101_back_partial",
    "Verif.Bytes.C101_negation"
   ],
   "note": "C101_back_partial: C101: the text of a count up to 18446 PB is read back as a count within 2% of the unit. Missing: larger counts (C101_negation). C101_negation: C101, violated: the text of a count of 18446.02 PB or more, though it fits in 64 bits, is refused by to_bytes."
  },
  {
   "property": "C102",
   "status": "partial",
   "theorems": [
    "Verif.EnumGen.C102_filled_partial",
    "Verif.EnumGen.C102_complete_partial",
    "Verif.EnumGen.C102_negation",
    "Verif.EnumGen.C102_code",
    "Verif.EnumGen.C102_comment_partial",
    "Verif.EnumGen.C102_negation_comment"
   ],
   "note": "C102_filled_partial: C102: when no input contains a %, the file is the template with every placeholder filled in with what is meant, wherever it stands. (Missing: inputs with %, see C102_negation.) C102_complete_partial: C102: no %, hence no placeholder, is left when no input contains a %. C102_negation: C102, negation: the placeholders are replaced one after the other in the whole text, so one that comes from the command line is replaced too. C102_comment_partial: C102: when no input contains a % and the command does not contain */, the comment in which the file and the command stand ends where it ends in the template. (Missing: see C102_negation_comment.) C102_negation_comment: C102, negation: the comment of the header can end too early, so that the rest of it is read as code: with a file whose name is the placeholder of the namespaces, and with an argument of the form --output=\u2026*/\u2026, which is written down unchanged."
  },
  {
   "property": "C103",
   "status": "partial",
   "theorems": [
    "Verif.EnumGen.C103_declares_partial",
    "Verif.EnumGen.C103_arguments",
    "Verif.EnumGen.C103_main_partial",
    "Verif.EnumGen.C103_negation_trailing"
   ],
   "note": "C103_declares_partial: C103: for values that are identifiers, the enumerators and the names in the array are the values given, in order, and the size of the array is their number. C103_main_partial: C103: run with identifiers separated by ; or ,, with white space around them, the script writes a header that declares these enumerators and these names. (Missing: a list that ends with a separator, see C103_negation_trailing.) C103_negation_trailing: C103, negation: with a separator at the end of the list, which C++ allows in an enumeration, the header has an additional empty name that belongs to no enumerator: the array has one name more than there are enumerators, and from_string(\"\") returns a value that is none of them."
  },
  {
   "property": "C104",
   "status": "proved",
   "theorems": [
    "Verif.EnumGen.C104_roundtrip",
    "Verif.EnumGen.C104_macro",
    "Verif.EnumGen.C104_text"
   ],
   "note": ""
  },
  {
   "property": "C105",
   "status": "partial",
   "theorems": [
    "Verif.Containers.C105_text",
    "Verif.Containers.C105_read_back_partial",
    "Verif.Containers.C105_negation"
   ],
   "note": "C105_read_back_partial: C105: split_string gives the elements back when they share no character with the separator. (Missing: other elements and the empty container, see C105_negation.) C105_negation: C105, negation: different containers have the same text."
  },
  {
   "property": "C106",
   "status": "proved",
   "theorems": [
    "Verif.Containers.C106_keys",
    "Verif.Containers.C106_convert",
    "Verif.Containers.C106_equal"
   ],
   "note": ""
  },
  {
   "property": "C107",
   "status": "proved",
   "theorems": [
    "Verif.SignalEvent.C107_registered",
    "Verif.SignalEvent.C107_no_terminate",
    "Verif.SignalEvent.C107_unused"
   ],
   "note": ""
  },
  {
   "property": "C108",
   "status": "partial",
   "theorems": [
    "Verif.SignalEvent.C108_returns_partial",
    "Verif.SignalEvent.C108_negation_unset",
    "Verif.SignalEvent.C108_negation_change"
   ],
   "note": "C108_returns_partial: C108: under fair scheduling every call of set_callback, unset_callback (and so the destructor) and simulate_event_occurred of any handler returns, however many signals arrive: whatever a client is doing, it is outside any call some time later. What is missing: callbacks that use their own handler, see C108_negation_unset and C108_negation_change. C108_negation_unset: C108, negation: a callback that unsets itself, called for a signal, waits forever for active_callbacks_mutex_, which the manager's thread itself holds, and with it everyone who sets or unsets the callback, so the destructor: nobody takes any step any more. C108_negation_change: C108, negation: a callback that calls set_callback, called for a signal, deadlocks with a client that calls unset_callback (or the destructor) at that moment: each holds a mutex the other one needs."
  },
  {
   "property": "C109",
   "status": "proved",
   "theorems": [
    "Verif.SignalEvent.C109_round"
   ],
   "note": ""
  },
  {
   "property": "C110",
   "status": "proved",
   "theorems": [
    "Verif.FileWatcher.C110_calls",
    "Verif.FileWatcher.C110_calls_changing"
   ],
   "note": ""
  },
  {
   "property": "C111",
   "status": "proved",
   "theorems": [
    "Verif.FileWatcher.C111_called"
   ],
   "note": ""
  },
  {
   "property": "C112",
   "status": "partial",
   "theorems": [
    "Verif.FileWatcher.C112_returns_partial",
    "Verif.FileWatcher.C112_negation_lost",
    "Verif.FileWatcher.C112_negation_deleted",
    "Verif.FileWatcher.C112_negation_self_unset",
    "Verif.FileWatcher.C112_negation_unset_in_callback",
    "Verif.FileWatcher.C112_negation_set_in_callback"
   ],
   "note": "C112_returns_partial: C112, part: under fair scheduling every call of a client returns, the destructor among them, if the callback does not use the handler, the watched directory is not deleted while it is watched, and the notification of ~FileWatch does not get lost: it does if _callback_thread has already evaluated its condition, but does not yet sleep, and _watch_thread does not afterwards read an event. C112_negation_lost: C112 does not hold: ~FileWatch stores _destory and notifies without _callback_mutex, so that _callback_thread may sleep for ever; then the join in the destructor, and with it unset_callback and ~FileWatcherHandler, do not return, although nothing happens to the directory and the callback is never called. C112_negation_deleted: C112 does not hold: when the watched directory is deleted, its watch is gone; inotify_rm_watch in ~FileWatch then has nothing to remove and causes no event, so that _watch_thread stays in read and the destructor does not return. C112_negation_self_unset: C112 does not hold: a callback that calls unset_callback is run by _callback_thread, which then joins itself; the exception this raises leaves the destructor of FileWatch, which ends the process. C112_negation_unset_in_callback: C112 does not hold: such a callback may also wait for ever, when it is called by simulate_event_occurred: it has internal_callback_mutex_ while it joins _callback_thread, which waits for that mutex. C112_negation_set_in_callback: C112 does not hold: a callback that calls set_callback waits for event_mutex_ with internal_callback_mutex_, a client in unset_callback waits for the second with the first."
  },
  {
   "property": "C113",
   "status": "proved",
   "theorems": [
    "Verif.FileWatcher.C113_unset_changing",
    "Verif.FileWatcher.C113_unset"
   ],
   "note": ""
  },
  {
   "property": "C114",
   "status": "partial",
   "theorems": [
    "Verif.FileWatcher.C114_watched_changing_partial",
    "Verif.FileWatcher.C114_deaf",
    "Verif.FileWatcher.C114_negation_swallowed",
    "Verif.FileWatcher.C114_watched_partial"
   ],
   "note": "C114_watched_changing_partial: C114, part, with callbacks that set another callback for the same handler. C114_negation_swallowed: C114 does not hold: if the path cannot be watched, the constructor of FileWatch throws; start_filewatcher_nts_ catches that, makes another exception without throwing it, and set_callback returns as if all were well. The callback is then set, nothing is watched (and nothing will be, see C114_deaf, whose hypotheses are met here). C114_watched_partial: C114, part: if the path can be watched all the time, then whenever a callback is set, and no call is setting or unsetting one, the path is being watched: both threads were started and have not been told to end."
  },
  {
   "property": "C115",
   "status": "proved",
   "theorems": [
    "Verif.FileWatch.C115_single_file",
    "Verif.FileWatch.C115_events"
   ],
   "note": ""
  },
  {
   "property": "C116",
   "status": "partial",
   "theorems": [
    "Verif.PyLog.C116_unused_partial",
    "Verif.PyLog.C116_global",
    "Verif.PyLog.C116_first_decides",
    "Verif.PyLog.C116_set_partial",
    "Verif.PyLog.C116_negation_silent",
    "Verif.PyLog.C116_negation_noisy"
   ],
   "note": "C116_unused_partial: C116, part: a message of a level that was not used before is written if and only if its level is at least the one last set (and above the one last disabled). C116_set_partial: C116, part: after set_log_level(L), until the next change, a message is written if and only if its level is at least L (nothing being disabled), provided its level was not used before that call. C116_negation_silent: C116 does not hold: debug messages stay silent after activate_debug() if one was logged before, because the object is not among those whose cache setLevel empties. C116_negation_noisy: C116 does not hold: messages are still written after a higher level was set."
  },
  {
   "property": "C117",
   "status": "partial",
   "theorems": [
    "Verif.PyLog.C117_once_partial",
    "Verif.PyLog.C117_formats",
    "Verif.PyLog.C117_negation"
   ],
   "note": "C117_once_partial: C117, part: without set_format a message that is written is written once, in the default format, and unchanged. C117_negation: C117 does not hold: after set_format a message is written twice, first in the old format."
  },
  {
   "property": "C118",
   "status": "partial",
   "theorems": [
    "Verif.PyDebug.C118_same_partial",
    "Verif.PyDebug.C118_written",
    "Verif.PyDebug.C118_negation_repr",
    "Verif.PyDebug.C118_negation_name",
    "Verif.PyDebug.C118_negation_wrapper"
   ],
   "note": "C118_same_partial: C118, part: if the function has a name and none of the arguments raises when it is made a text, the decorated function returns or raises what the function does, with the same effect. C118_negation_repr: C118 does not hold: an argument whose repr raises makes the decorated function raise, even when debug messages are not written, and the function is not called. C118_negation_name: C118 does not hold: a callable without __name__, such as a functools.partial, can be decorated, but not called then. C118_negation_wrapper: C118 does not hold: the decorated function has another name, so that a second decoration reports calls of \"wrapper\"."
  },
  {
   "property": "C119",
   "status": "partial",
   "theorems": [
    "Verif.PyDebug.C119_methods_partial",
    "Verif.PyDebug.C119_negation"
   ],
   "note": "C119_methods_partial: C119, part: if no access to an attribute raises, one text is written that names the class and exactly the callable attributes, in the order of dir; nothing else happens. C119_negation: C119 does not hold: an attribute whose access raises, such as a property that is not available in the present state, makes the helper raise, even when debug messages are not written."
  },
  {
   "property": "C120",
   "status": "partial",
   "theorems": [
    "Verif.PyTimer.C120_elapsed_partial",
    "Verif.PyTimer.C120_exact",
    "Verif.PyTimer.C120_negation"
   ],
   "note": "C120_elapsed_partial: C120, part: if the clock does not go back, the time elapsed is never negative, and not smaller when asked later; it differs from the time since the last reset by at most one part in 2^53. C120_negation: C120 does not hold: time.time() is the time of the day, not a steady clock; when it is set back the time elapsed is negative."
  },
  {
   "property": "C121",
   "status": "partial",
   "theorems": [
    "Verif.Pattern.C121_match_partial",
    "Verif.Pattern.C121_literal",
    "Verif.Pattern.C121_open",
    "Verif.Pattern.C121_star",
    "Verif.Pattern.C121_negation"
   ],
   "note": "C121_match_partial: C121, part: for texts without null characters a pattern matches exactly the texts that can be cut into pieces of which each is one that the corresponding part of the pattern stands for. C121_negation: C121 does not hold: texts are compared only up to their first null character."
  },
  {
   "property": "C122",
   "status": "partial",
   "theorems": [
    "Verif.TaskId.C122_unique_partial",
    "Verif.TaskId.C122_distance",
    "Verif.TaskId.C122_negation"
   ],
   "note": "C122_unique_partial: C122 for the first 2^32 calls of the process (missing: later ones, see C122_negation). Whichever threads call the function in whatever order, no two calls return the same id. C122_negation: C122 is false in a process that makes more calls: the call 2^32 later returns the same id again."
  },
  {
   "property": "C123",
   "status": "partial",
   "theorems": [
    "Verif.LocalTime.C123_print",
    "Verif.LocalTime.C123_same_text",
    "Verif.LocalTime.C123_text_partial",
    "Verif.LocalTime.C123_negation_overlap",
    "Verif.LocalTime.C123_negation_refused",
    "Verif.LocalTime.C123_utc"
   ],
   "note": "C123_text_partial: C123 for the timestamps whose local time no other second has, outside the last second but one before 1970 (missing: those, see C123_negation_overlap and C123_negation_refused). The text is read back as the timestamp without its fraction of a second. C123_negation_overlap: C123 is false when clocks are put back: of two seconds with the same local time at most one is read back, whichever mktime takes. C123_negation_refused: C123 is false for the second before 1970: it is refused, being the value with which mktime reports a failure."
  },
  {
   "property": "C124",
   "status": "proved",
   "theorems": [
    "Verif.OptParse.C124_roundtrip"
   ],
   "note": ""
  },
  {
   "property": "C125",
   "status": "proved",
   "theorems": [
    "Verif.OptParse.C125_reorder"
   ],
   "note": ""
  },
  {
   "property": "C126",
   "status": "proved",
   "theorems": [
    "Verif.OptParse.C126_lists"
   ],
   "note": ""
  },
  {
   "property": "C127",
   "status": "partial",
   "theorems": [
    "Verif.OptParse.C127_sizes_partial",
    "Verif.OptParse.C127_original_partial",
    "Verif.OptParse.C127_negation"
   ],
   "note": "C127_sizes_partial: C127 for programs without gnu, or whose checks are Stable (missing: other checks with gnu, see C127_negation): arrays of the sizes that Stats has computed are large enough for the same calls of parse, and these find the options that were counted, whether they get the vectors in their original order or as Stats has left them. C127_original_partial: C127 without any condition on the checks, if the parser gets the vectors in their original order. C127_negation: C127 is false: -n file -5 -xyz, where -n has an optional number and -5 needs an argument. Stats counts two options (-n and -5 -xyz) and moves file to the end; then -5 is the number, and the parser stores four options in a buffer of three."
  },
  {
   "property": "C128",
   "status": "partial",
   "theorems": [
    "Verif.OptParse.C128_long_partial",
    "Verif.OptParse.C128_negation"
   ],
   "note": "C128_long_partial: C128 for names that are not empty (missing: --=\u2026, see C128_negation). A long option without argument is taken for the option of the table that it means, and if it means none, for an unknown one. C128_negation: C128 is false for empty names: --=5 is taken for the first option that has no long name."
  },
  {
   "property": "C129",
   "status": "partial",
   "theorems": [
    "Verif.CMake.C129_read",
    "Verif.CMake.C129_configured_partial",
    "Verif.CMake.C129_negation",
    "Verif.CMake.C129_negation_missing",
    "Verif.CMake.C129_negation_all"
   ],
   "note": "C129_configured_partial: C129. configure_project takes all four variables from the file when none of them is set, and leaves every variable alone when all four are. Missing: a project that sets some of the four, see C129_negation. C129_negation: C129 fails when a project sets some of the four variables: three numbers set in the settings are replaced by those of the file, and a version set alone is combined with the numbers of another version. C129_negation_missing: C129 for a file that is not of the documented form: without the line of the third number, or with a tab instead of the blank, nothing is reported. The variable stays undefined and the version ends with a point. C129_negation_all: C129, negation: of a project that sets the numbers but not MODULE_VERSION, every number is replaced by the one in the file; of a project that sets MODULE_VERSION but not all numbers, the version stays and the numbers are those of the file, whatever they are."
  },
  {
   "property": "C130",
   "status": "partial",
   "theorems": [
    "Verif.CMake.C130_options_partial",
    "Verif.CMake.C130_succeeds",
    "Verif.CMake.C130_log_partial",
    "Verif.CMake.C130_negation",
    "Verif.CMake.C130_negation_docs"
   ],
   "note": "C130_options_partial: C130, all options but LOG_INFO: a value the user gives stays; without one the option gets the default of the table in the README, where the four options that follow BUILD_TESTS take its value; and no other variable changes. Missing: LOG_INFO (see C130_log_partial and C130_negation), and the default of BUILD_DOCS, which is on as well when BUILD_ALL is. C130_log_partial: C130, LOG_INFO: without a value of its own it is on in a Debug build and off in any other; a value in the cache stays when no normal variable hides it. Missing: values given as a normal variable, and later calls, see C130_negation. C130_negation: C130 fails for LOG_INFO: set(LOG_INFO ON) in the settings of a project is lost; a second call, as for a project inside another, turns it off in a Debug build; and a build directory that was configured for Release first never turns it on for Debug. C130_negation_docs: C130 fails for BUILD_DOCS, which the README says follows BUILD_DOCS_TESTS: with BUILD_ALL it is on though the tests of the documentation are not."
  },
  {
   "property": "C131",
   "status": "partial",
   "theorems": [
    "Verif.CMake.C131_settings_partial",
    "Verif.CMake.C131_twice",
    "Verif.CMake.C131_required",
    "Verif.CMake.C131_negation",
    "Verif.CMake.C131_negation_all"
   ],
   "note": "C131_settings_partial: C131. For a module with a name, load_project_settings keeps every setting that does not say no, gives the documented default to each variable without one, and touches no other variable. Missing: the default of MODULE_SUMMARY, which the README says is MODULE_NAME_LARGE, see C131_negation. C131_negation: C131 fails for the summary: the README says its default is the large name, it is the plain name. A large name that reads as \"no\" is replaced. C131_negation_all: C131, negation: for every module and every large name the summary is the plain name; and a large name that CMake reads as \"no\" or \"not found\" is replaced by the plain name."
  },
  {
   "property": "C132",
   "status": "partial",
   "theorems": [
    "Verif.CMake.C132_packages",
    "Verif.CMake.C132_error_iff",
    "Verif.CMake.C132_honoured_partial",
    "Verif.CMake.C132_negation"
   ],
   "note": "C132_honoured_partial: C132. A least version of one number, or of two with a point between, is asked for, provided it is not zero. Missing: versions of three numbers, which are the ones the README shows; see C132_negation. C132_negation: C132 fails for every version of three numbers, such as the 3.0.0 of the README: it is not a number, so if(3.0.0) looks for a variable of that name, and the package is looked for without a version."
  },
  {
   "property": "C133",
   "status": "partial",
   "theorems": [
    "Verif.CMake.C133_directories_partial",
    "Verif.CMake.C133_negation"
   ],
   "note": "C133_directories_partial: C133. An installation directory the user gives (a value that does not read as \"no\", as a variable, in the settings file or with -D) is the one used; a directory not given is the documented one, provided no value reading as \"no\" is in the cache; in both cases the short name has the same value. The licence goes to a directory with the name of the module inside the data directory (. on Windows). Missing: a licence directory left in the cache by another module of the same build; see C133_negation. C133_negation: C133 fails for the second of two modules configured in one build, as with add_subdirectory: whatever its name, its licence is installed under the name of the first."
  },
  {
   "property": "C134",
   "status": "partial",
   "theorems": [
    "Verif.CMake.C134_labels_partial",
    "Verif.CMake.C134_projects",
    "Verif.CMake.C134_negation_missing",
    "Verif.CMake.C134_negation_directories"
   ],
   "note": "C134_labels_partial: C134. A directory calls set_test_label_file for any number of files and labels (at least one), starting without labels of its own. Then a test gets, in the same directory and in its parent, exactly the labels whose files have its name in one of their lines, in the order of the calls. Missing: files that do not exist, see C134_negation_missing; calls in several directories, see C134_negation_directories; labels and lines with ;; tests whose name is that of a variable. C134_negation_missing: C134 fails when a file does not exist: the warning says that its label cannot be set, but no later call of the directory has an effect either. C134_negation_directories: C134 fails for a second directory: the labels of the first are lost, in the parent and for the tests of the second."
  },
  {
   "property": "C135",
   "status": "partial",
   "theorems": [
    "Verif.CMake.C135_selected_partial",
    "Verif.CMake.C135_negation_never",
    "Verif.CMake.C135_negation_suites",
    "Verif.CMake.C135_negation_unknown",
    "Verif.CMake.C135_report_partial"
   ],
   "note": "C135_selected_partial: C135. The entry S.C runs, among the tests of the executable, exactly those of the test case C of suites whose name begins with S: plain tests S'.C, tests with parameters I/S'.C/p and tests with types S'/i.C. Missing: suites with a longer name are run too (C135_negation_suites); instances without a name and tests with types as parameters are not run (C135_negation_never); an entry for a test that does not exist passes (C135_negation_unknown). C135_negation_never: C135 fails for tests with parameters whose instance has no name, S.C/p, and for tests with types as parameters, I/S/i.C: no entry S.C runs them (the latter unless the name of the instance begins with S). C135_negation_suites: C135 fails for suites of one executable with a common beginning: the entry of the shorter name runs the tests of the longer one as well. C135_negation_unknown: C135 fails for a test that is listed but does not exist, by a misspelling for instance: the entry runs nothing and passes, even when all tests fail. C135_report_partial: C135. When every test of the suite is listed, or nothing is, ctest is a faithful report: all entries pass exactly when all tests of the suite pass. Missing: what C135_selected_partial says."
  },
  {
   "property": "C136",
   "status": "partial",
   "theorems": [
    "Verif.CMake.C136_library",
    "Verif.CMake.C136_tests_partial",
    "Verif.CMake.C136_negation",
    "Verif.CMake.C136_headers_partial",
    "Verif.CMake.C136_negation_headers"
   ],
   "note": "C136_tests_partial: C136. The sources of a test get all sources and headers of the library that are not directly in src/cpp, or the files given. Missing: the files directly in src/cpp, see C136_negation. C136_negation: C136 fails for the files directly in src/cpp, such as utils.cpp:  stands for exactly one directory, so all_library_sources finds none of them. C136_headers_partial: C136. Under MSVC the headers that no argument gives are exactly the files in the directories below the two paths whose names end in .h, .hpp or .ipp. Missing: the files directly in one of the paths, which are not found, and headers that are given, see C136_negation_headers. C136_negation_headers: C136 fails for headers given to compile_library under MSVC: they are ignored and the sources take their place, so a header that is not also among the sources is left out."
  },
  {
   "property": "C137",
   "status": "partial",
   "theorems": [
    "Verif.CMake.C137_flags_partial",
    "Verif.CMake.C137_quiet",
    "Verif.CMake.C137_refused",
    "Verif.CMake.C137_negation"
   ],
   "note": "C137_flags_partial: C137. After configure_project_cpp the flags of both compilers are those given, followed by exactly the flags that the options which are on stand for with that compiler (and, for MSVC, the flag for the preprocessor); with no option on nothing is added, whatever the compilers. Missing: a C compiler of one family with a C++ compiler of the other, see C137_negation. C137_negation: C137 fails for a C compiler of the one family and a C++ compiler of the other: GCC gets the flags of Clang, which it does not know."
  },
  {
   "property": "C138",
   "status": "partial",
   "theorems": [
    "Verif.CMake.C138_version_partial",
    "Verif.CMake.C138_negation"
   ],
   "note": "C138_version_partial: C138. When configure_project_cpp succeeds, CMAKE_CXX_STANDARD is the version asked for by MODULE_CPP_VERSION, given as a number or with C++ before it, and the compiler supports it if it was asked; nothing is forced without MODULE_CPP_VERSION. Missing: a compiler other than GCC and Clang is not asked; and the value '' that the README gives as default, see C138_negation. C138_negation: C138 fails for the value that the README gives as default: a MODULE_CPP_VERSION that is set and empty stops every configuration, since force_cpp is then called without an argument."
  },
  {
   "property": "C139",
   "status": "partial",
   "theorems": [
    "Verif.CMake.C139_defaults_partial",
    "Verif.CMake.C139_negation"
   ],
   "note": "C139_defaults_partial: C139. A build type that is given is kept, otherwise it is Release (unless the generator has several configurations); libraries are shared unless BUILD_SHARED_LIBS is given in the cache, by -D for example. Missing: BUILD_SHARED_LIBS given as a variable by the project, see C139_negation. C139_negation: C139 fails for a project that sets BUILD_SHARED_LIBS as a variable: option() removes the variable, so the first configuration builds shared libraries. The second configuration of the same project finds the entry in the cache, leaves the variable alone, and does what the project says: the two differ."
  },
  {
   "property": "C140",
   "status": "proved",
   "theorems": [
    "Verif.Usage.C140_measured",
    "Verif.Usage.C140_malicious_bytes"
   ],
   "note": ""
  },
  {
   "property": "C141",
   "status": "proved",
   "theorems": [
    "Verif.Usage.C141_grid"
   ],
   "note": ""
  },
  {
   "property": "C142",
   "status": "proved",
   "theorems": [
    "Verif.Usage.C142_lines_fit",
    "Verif.Usage.C142_nothing_lost",
    "Verif.Usage.C142_unique",
    "Verif.Usage.C142_wrap"
   ],
   "note": ""
  },
  {
   "property": "C143",
   "status": "proved",
   "theorems": [
    "Verif.Usage.C143_queue"
   ],
   "note": ""
  },
  {
   "property": "C144",
   "status": "proved",
   "theorems": [
    "Verif.Usage.C144_columns",
    "Verif.Usage.C144_natural"
   ],
   "note": ""
  },
  {
   "property": "C145",
   "status": "proved",
   "theorems": [
    "Verif.Usage.C145_tables",
    "Verif.Usage.C145_table_breaks",
    "Verif.Usage.C145_null_shortopt"
   ],
   "note": ""
  },
  {
   "property": "C146",
   "status": "proved",
   "theorems": [
    "Verif.Usage.C146_aligned"
   ],
   "note": ""
  },
  {
   "property": "C147",
   "status": "partial",
   "theorems": [
    "Verif.Usage.C147_line_width_partial",
    "Verif.Usage.C147_negation_wide_option"
   ],
   "note": "C147_line_width_partial: C147, as far as it goes: no character is written beyond the width, if in every table the widest cells of the columns before any other leave two columns of room, and lines of the last column have between two columns and the width. What is missing is shown to be false below: a cell before the last column that is too wide is not cut. C147_negation_wide_option: C147 does not hold in general: an option that is wider than the width is not cut."
  },
  {
   "property": "C148",
   "status": "partial",
   "theorems": [
    "Verif.Usage.C148_nothing_lost_partial",
    "Verif.Usage.C148_negation_ninth_column"
   ],
   "note": "C148_nothing_lost_partial: C148, as far as it goes: every character of the help texts is written as often as it is there, apart from spaces and separators, if no row has more than eight columns. What is missing is shown to be false below: cells of further columns are not written. C148_negation_ninth_column: C148 does not hold in general: the ninth cell of a row is not written."
  },
  {
   "property": "C149",
   "status": "partial",
   "theorems": [
    "Verif.WaitHandler.C149_system_clock",
    "Verif.WaitHandler.C149_not_early_partial",
    "Verif.WaitHandler.C149_negation_set_forward",
    "Verif.Counter.C149_counter_not_early_partial",
    "Verif.Counter.C149_counter_negation_set_forward",
    "Verif.Timed.C149_all_executions",
    "Verif.Timed.C149_counter_all_executions"
   ],
   "note": "C149_not_early_partial: C149, as long as nobody sets the system clock forward: a wait that returns timeout has lasted at least its timeout. Missing: waits during which the system clock is set forward (C149_negation_set_forward). C149_negation_set_forward: C149 fails when the system clock is set forward: a wait of one second returns timeout though no time has passed. C149_counter_not_early_partial: C149 for CounterWaitHandler and ConsumerWaitHandler, as long as nobody sets the system clock forward. C149_counter_negation_set_forward: C149 fails there too when the system clock is set forward."
  },
  {
   "property": "C150",
   "status": "partial",
   "theorems": [
    "Verif.WaitHandler.C150_ends_partial",
    "Verif.WaitHandler.C150_negation_set_back"
   ],
   "note": "C150_ends_partial: C150, as long as the system clock goes on to every date: a wait with a timeout returns (under fair scheduling). Missing: a bound in time that passes (C150_negation_set_back). C150_negation_set_back: C150 fails when the system clock is set back: for every duration there is a wait of one millisecond that is still asleep after it, and can go on only when somebody else acts."
  },
  {
   "property": "C151",
   "status": "proved",
   "theorems": [
    "Verif.PyWaitHandler.C151_not_early",
    "Verif.Timed.C151_all_executions"
   ],
   "note": ""
  },
  {
   "property": "C152",
   "status": "proved",
   "theorems": [
    "Verif.Periodic.C152_period",
    "Verif.Periodic.C152_first",
    "Verif.Timed.C152_all_executions"
   ],
   "note": ""
  },
  {
   "property": "C153",
   "status": "partial",
   "theorems": [
    "Verif.Editor.C153_screen_partial",
    "Verif.Editor.C153_negation_full",
    "Verif.Editor.C153_negation_move",
    "Verif.Editor.C153_negation_end",
    "Verif.Editor.C153_negation_recall",
    "Verif.Editor.C153_negation_bytes"
   ],
   "note": "C153_screen_partial: C153, as long as keys are Careful: whatever is typed, erased, moved and recalled on a terminal of any width, while the line has not ended the screen shows it behind the prompt and nothing else there, what was above stays, and the cursor is where the next character goes unless the text before it fills its row. Missing: C153_negation_full, C153_negation_move, C153_negation_end, C153_negation_recall, C153_negation_bytes. C153_negation_full: C153 fails for the cursor behind a full row: it is shown at the beginning of this row, over the prompt. C153_negation_move: C153 fails when the cursor is moved from there: the row above the prompt is overwritten with the next key. C153_negation_end: C153 fails when the cursor is moved to there: the first row is shown twice after the next key. C153_negation_recall: C153 fails for a command recalled while the cursor is not in the last row: rows above the prompt are lost. C153_negation_bytes: C153 fails for text that is not ASCII: bytes are counted as columns. After \"\u00e9\" (two bytes) and \"a\" the cursor is one column too far, and one key back and another key later the next character breaks the \"\u00e9\" in two."
  },
  {
   "property": "C154",
   "status": "partial",
   "theorems": [
    "Verif.Editor.C154_below_partial",
    "Verif.Editor.C154_negation"
   ],
   "note": "C154_below_partial: C154, with the cursor in the last row: after Enter or Ctrl+C the cursor is at the beginning of the first row below the line, and the screen shows what it has shown. Missing: C154_negation. C154_negation: C154 fails with the cursor in an upper row: what is written next covers the rest of the line."
  },
  {
   "property": "C155",
   "status": "partial",
   "theorems": [
    "Verif.SlotThreadPool.C155_executed_partial",
    "Verif.SlotThreadPool.C155_negation_disabled",
    "Verif.SlotThreadPool.C155_negation_other"
   ],
   "note": "C155_executed_partial: C155, what holds: in a SlotThreadPool that nobody disables and whose queue never stores 2^32 ids, when tasks throw nothing but utils::DisabledException, and fewer executions do so than the pool has threads, every emit that was accepted is executed: for every moment there is a later one at which the tasks of every id have ended at least as many times as the id had been emitted. Missing: the same for any exceptions, see C155_negation_disabled and C155_negation_other. C155_negation_disabled: C155 fails: a task that throws utils::DisabledException (which it gets from any queue of the library that is disabled) silently ends the thread that executes it. In a pool of one thread, which stays enabled, the next emit is accepted and never executed, and wait_all_consumed() never returns. C155_negation_other: C155 fails: any other exception of a task is caught by nobody and ends the process."
  },
  {
   "property": "C156",
   "status": "proved",
   "theorems": [
    "Verif.TSafeRandom.C156_linear",
    "Verif.TSafeRandom.C156_shared_sequence",
    "Verif.TSafeRandom.C156_seeded_sequence",
    "Verif.TSafeRandom.C156_seeded",
    "Verif.TSafeRandom.C156_recorded"
   ],
   "note": ""
  },
  {
   "property": "C157",
   "status": "proved",
   "theorems": [
    "Verif.TSafeRandom.C157_returns"
   ],
   "note": ""
  },
  {
   "property": "C158",
   "status": "partial",
   "theorems": [
    "Verif.SlotThreadPool.C158_calls_return_partial",
    "Verif.SlotThreadPool.C158_executed_partial",
    "Verif.SlotThreadPool.C158_disable_returns_partial",
    "Verif.SlotThreadPool.C158_negation_disable",
    "Verif.SlotThreadPool.C158_negation_wait"
   ],
   "note": "C158_calls_return_partial: C158, what holds: a call of emit or slot that a task makes on the pool that executes it returns or throws, in every fair execution in which tasks make no other calls on it, whatever the clients do, and whatever the tasks that are executed at the same time do. (w is a thread of the pool and w - d the call of its task.) Missing: disable and wait_all_consumed, see C158_negation_disable and C158_negation_wait. C158_executed_partial: C158, what holds: tasks may emit further tasks, and register them. In a SlotThreadPool that nobody disables, whose tasks call nothing but emit and slot of it, each a finite number of times, every emit that was accepted, by a client or by a task, is executed; under the assumptions on exceptions and on the size of the queue of C155. C158_disable_returns_partial: C158, what holds: disable(), called by a client, returns, though tasks call emit and slot of the pool (each a finite number of times) while it waits for them. C158_negation_disable: C158 fails: disable() called by a task waits for the thread that executes this task: it joins itself. (Where that is detected, join throws, and the process ends because disable is noexcept.) C158_negation_wait: C158 fails: in a pool of one thread, wait_all_consumed() called by a task never returns when another task is queued, which nobody will take: the pool is stuck for ever."
  },
  {
   "property": "C159",
   "status": "proved",
   "theorems": [
    "Verif.Counter.C159_wait_ends",
    "Verif.Counter.C159_consume_ends",
    "Verif.SlotThreadPool.C159_pool_ends"
   ],
   "note": ""
  },
  {
   "property": "C160",
   "status": "partial",
   "theorems": [
    "Verif.SlotThreadPool.C160_no_race_partial",
    "Verif.SlotThreadPool.C160_threads_partial",
    "Verif.SlotThreadPool.C160_bound_partial",
    "Verif.SlotThreadPool.C160_joined_partial",
    "Verif.SlotThreadPool.C160_negation_race",
    "Verif.SlotThreadPool.C160_negation_aborts",
    "Verif.SlotThreadPool.C160_negation_clear",
    "Verif.SlotThreadPool.C160_negation_early"
   ],
   "note": "C160_no_race_partial: C160, as far as it holds: as long as no enable overlaps a disable, any number of threads call enable at the same time, or disable at the same time, and everything else at any time: threads_ is never changed while another thread uses it, and emptying it never destroys a thread that runs. (Missing: an enable during a disable, for which both happen, see the negations.) C160_threads_partial: C160, as far as it holds: whichever threads called them, once all calls of enable and disable have returned, an enabled pool has exactly number_of_threads threads, and a disabled one has none: no thread is in the routine of the pool. (Missing: as above.) C160_bound_partial: C160, as far as it holds: even with calls in progress, no more than number_of_threads tasks are executed at the same time. (Missing: as above.) C160_joined_partial: C160, as far as it holds: nothing is added to or taken from threads_ while a disable goes through it, so that it joins exactly the threads that it then removes. (Missing: as above.) C160_negation_race: C160 does not hold: disable called while enable creates the threads goes through threads_ while enable adds to it. C160_negation_aborts: C160 does not hold: enable called after disable has joined the threads and before it empties threads_ creates threads that disable then destroys while they run, which ends the process. C160_negation_clear: C160 does not hold: a first disable empties threads_ while a second one, which an enable in between made possible, goes through it. C160_negation_early: C160 does not hold: a disable that finds another one in progress returns at once, although the documentation says that disable blocks until every thread has finished: thread 1 has called disable, it has returned, and a task is being executed."
  },
  {
   "property": "C161",
   "status": "partial",
   "theorems": [
    "Verif.Counter.C161_safe_partial",
    "Verif.Counter.C161_reason_partial",
    "Verif.Counter.C161_ends_partial",
    "Verif.Counter.C161_negation_granted",
    "Verif.Counter.C161_negation_gone",
    "Verif.Counter.C161_negation_element",
    "Verif.Counter.C161_negation_hangs"
   ],
   "note": "C161_safe_partial: C161, as far as it holds: if, when its destruction starts, the other threads make no call or wait for elements in consume or wait_and_decrement, and there are none, then no thread uses a member that has been destroyed, and when the object is gone no thread is within a call. (Missing: the other calls, and elements that arrived before, see the negations; and the mutex that the last call releases, see C53_negation.) C161_reason_partial: C161, as far as it holds: in this case the waiting calls end because of the destruction: consume throws DisabledException and wait_and_decrement returns disabled, unless they have a timeout that passes before. (Missing: as above.) C161_ends_partial: C161, as far as it holds: in this case the destructor ends, under fair scheduling. (Missing: as above.) C161_negation_granted: C161 does not hold: a consumer that has been granted an element, and has not taken it yet, does so from a queue that no longer exists: the destructors of the derived classes do not wait for it. C161_negation_gone: C161 does not hold: such a consumer is not waited for at all: the destructor of the base class ends while it is within consume. C161_negation_element: C161 does not hold: an element that arrived before the destruction started, and for which a consumer has been woken, is granted during the destruction: the consumer reads threshold_ after its destruction. C161_negation_hangs: C161 does not hold: while a thread sleeps in wait_all_consumed, the condition variable on which it sleeps is destroyed, and the destructor never ends: nothing wakes the thread, and the destructor waits for it for ever."
  },
  {
   "property": "C162",
   "status": "proved",
   "theorems": [
    "Verif.FileAccess.C162_compose",
    "Verif.FileAccess.C162_single",
    "Verif.FileAccess.C162_composed",
    "Verif.FileAccess.C162_exist",
    "Verif.FileAccess.C162_contains",
    "Verif.FileAccess.C162_windows"
   ],
   "note": ""
  },
  {
   "property": "C163",
   "status": "partial",
   "theorems": [
    "Verif.LogMacros.C163_debug",
    "Verif.LogMacros.C163_when",
    "Verif.LogMacros.C163_release",
    "Verif.LogMacros.C163_user",
    "Verif.LogMacros.C163_dev_partial",
    "Verif.LogMacros.C163_negation"
   ],
   "note": "C163_dev_partial: C163, as far as it holds: logDevError queues in the same builds and at the same verbosity as logDebug, at which it evaluates its message once. (Missing: that the entry is of kind Info, see the negation.) C163_negation: C163 does not hold: \"it is used as Info level\" (Log.hpp:47), but logDevError queues warnings: it does so at verbosity Info only, and a handler of severe entries counts each as a warning."
  },
  {
   "property": "C164",
   "status": "partial",
   "theorems": [
    "Verif.Heritable.Own.C164_once_partial",
    "Verif.Heritable.Own.C164_class_partial",
    "Verif.Heritable.Own.C164_negation_class",
    "Verif.Heritable.Own.C164_negation_twice"
   ],
   "note": "C164_once_partial: C164: in every history in which no pointer is given to two constructors of Heritables, an object that was given to a Heritable<k> exists as long as a Heritable refers to it, and has been deleted once, as an object of class k, when none does, whatever copies, moves and assignments there were and to whatever classes; an object that was given to none has not been deleted. C164_class_partial: C164: the destructor of the object's own class runs (expr.delete: the class is the one the object was made with, or its destructor is virtual), if every Heritable made from a pointer is of the class of the object or of one with a virtual destructor. What is missing is the rest, see C164_negation_class. C164_negation_class: C164 fails: Heritable<Base>(new Derived) with a base class whose destructor is not virtual deletes the object as one of the base class, which is undefined behaviour (a std::shared_ptr<Base>(new Derived) deletes it as a Derived). C164_negation_twice: C164 fails: one pointer given to two constructors is deleted twice, and the first time while the other Heritable still refers to it."
  },
  {
   "property": "C165",
   "status": "partial",
   "theorems": [
    "Verif.Stdin.C165_order",
    "Verif.Stdin.C165_count",
    "Verif.Stdin.C165_called",
    "Verif.Stdin.C165_one_thread",
    "Verif.Stdin.C165_started",
    "Verif.Stdin.C165_stopped",
    "Verif.Stdin.C165_quiet",
    "Verif.Stdin.C165_all_partial",
    "Verif.Stdin.C165_negation_lost"
   ],
   "note": "C165_all_partial: C165, the part that holds: if unset_callback is never called, every line that is read is given to the callback. Missing: a line that is being waited for or processed when unset_callback is called may be read and dropped (C165_negation_lost). C165_negation_lost: C165, negation: in a fair execution a line is asked for, a callback is set in the end and two lines have been typed, and no callback is ever called: the line that was being waited for when unset_callback was called was read and dropped, and the next one is not read."
  },
  {
   "property": "C166",
   "status": "proved",
   "theorems": [
    "Verif.Stdin.C166_delivers"
   ],
   "note": ""
  },
  {
   "property": "C167",
   "status": "partial",
   "theorems": [
    "Verif.Stdin.C167_negation_input",
    "Verif.Stdin.C167_negation_self",
    "Verif.Stdin.C167_negation_deadlock",
    "Verif.Stdin.C167_returns_partial"
   ],
   "note": "C167_negation_input: C167, negation: unset_callback, and so the destructor, waits for a line to be typed: in a fair execution in which nobody types it does not return. (The header says that there is no way to stop a thread that waits for input.) C167_negation_self: C167, negation: a callback that unsets its handler joins the reading thread from the reading thread itself: the process is terminated (std::system_error in a noexcept function). C167_negation_deadlock: C167, negation: a callback that sets another callback, and a client that calls unset_callback (or the destructor) at that moment, wait for each other: in a fair execution neither call returns, whatever is typed. C167_returns_partial: C167, the part that holds: under fair scheduling, if a line is typed whenever the reading thread waits for one, every call of set_callback, unset_callback (and so the destructor) and read_one_more_line returns; the callback may ask for lines, but not set or unset callbacks. Missing: unset_callback when no line comes (C167_negation_input), and callbacks that set or unset callbacks (C167_negation_self, C167_negation_deadlock)."
  },
  {
   "property": "C168",
   "status": "partial",
   "theorems": [
    "Verif.Terminal.C168_restored_partial",
    "Verif.Terminal.C168_raw",
    "Verif.Terminal.C168_apart_partial",
    "Verif.Terminal.C168_negation"
   ],
   "note": "C168_restored_partial: C168, the part that holds: while there is one handler at a time, the terminal is as its user left it whenever no handler reads. Missing: two handlers that read at the same time (C168_negation). C168_apart_partial: C168, the part that holds, for handlers that start and end in any order: when nobody reads any more, the terminal is as before if no two of them have ever been reading at the same time. Missing: C168_negation. C168_negation: C168, negation: once two handlers have been reading at the same time, the terminal is left without line editing, echo and signals when they have ended, in whatever order, whatever it was before, and handlers that read later do not repair it."
  },
  {
   "property": "C169",
   "status": "proved",
   "theorems": [
    "Verif.Stdin.C169_order",
    "Verif.Stdin.C169_typed",
    "Verif.Stdin.C169_on_request",
    "Verif.Stdin.C169_returns"
   ],
   "note": ""
  },
  {
   "property": "C170",
   "status": "partial",
   "theorems": [
    "Verif.Editor.C170_lines_partial",
    "Verif.Editor.C170_negation_source",
    "Verif.Editor.C170_negation_words"
   ],
   "note": "C170_lines_partial: C170, the part that holds: if source is the standard input and read_lines is true (the defaults), the callback gets the lines of the source, up to as many as are asked for, each without its line feed. Missing: any other source (C170_negation_source) and read_lines = false (C170_negation_words). C170_negation_source: C170, negation: another source is ignored: with the lines of source it should give one callback, and however long it runs it gives none if nothing comes from the standard input, and what comes from there otherwise. C170_negation_words: C170, negation: with read_lines = false the words of a line are not given one by one."
  },
  {
   "property": "C171",
   "status": "partial",
   "theorems": [
    "Verif.EventHandler.C171_events_partial",
    "Verif.EventHandler.C171_waits_partial",
    "Verif.EventHandler.C171_ends",
    "Verif.EventHandler.C171_negation_waiting",
    "Verif.EventHandler.C171_negation_entering",
    "Verif.EventHandler.C171_negation_event"
   ],
   "note": "C171_events_partial: C171, as far as it holds: if, when the destruction of a handler with a callback starts, the other threads make no call or are within an event whose callback is called or about to be, or that has been counted (with the mutex locked), then no thread is within a call when the handler is gone: nobody uses it any longer. (Missing: the other calls; and a handler without callback, see the negations.) C171_waits_partial: C171, as far as it holds: if threads sleep in wait_for_event as well, then when the handler is gone no thread sleeps on, or is about to lock, a mutex or condition variable of it: each has returned or is about to read the number of events. (Missing: as above, and that read, see C171_negation_waiting.) C171_negation_waiting: C171 does not hold: a thread that slept in wait_for_event when the destruction started reads the number of events (EventHandler.ipp:144) of a handler that is gone: it has left the count of waiting threads before. C171_negation_entering: C171 does not hold: a thread that had seen that the callback is set (EventHandler.ipp:124) locks the mutex of a handler that is gone. C171_negation_event: C171 does not hold without a callback: an event that is being processed, with the mutex of the handler locked, is not waited for."
  },
  {
   "property": "C172",
   "status": "partial",
   "theorems": [
    "Verif.Reentrant.C172_raise_partial",
    "Verif.Reentrant.C172_last_partial",
    "Verif.Reentrant.C172_latest",
    "Verif.Reentrant.C172_none",
    "Verif.Reentrant.C172_counted",
    "Verif.Reentrant.C172_negation_set",
    "Verif.Reentrant.C172_negation_unset"
   ],
   "note": "C172_raise_partial: C172, as far as it holds: if callbacks neither set nor unset the callback of their handler (but may raise events of it, and the client does what it likes), a callback never uses a variable that is gone. (Missing: callbacks that set or unset, see C172_negation_set, C172_negation_unset.) C172_last_partial: C172, as far as it holds: if each callback is done with its variables before it sets, unsets or raises anything, it may do so: no callback uses a variable that is gone. (Missing: callbacks that go on with their variables, see the negations.) C172_negation_set: C172 does not hold: a callback that sets another one in its place and then uses a variable of its own uses a variable that is gone. C172_negation_unset: C172 does not hold: neither may a callback go on with its variables after it has unset itself."
  },
  {
   "property": "C173",
   "status": "proved",
   "theorems": [
    "Verif.MultipleShared.C173_safe",
    "Verif.MultipleShared.C173_quiet",
    "Verif.MultipleShared.C173_exclusive",
    "Verif.MultipleShared.C173_counts",
    "Verif.MultipleShared.C173_sum",
    "Verif.MultipleShared.C173_ends",
    "Verif.MultipleShared.C173_event_ends"
   ],
   "note": ""
  },
  {
   "property": "C174",
   "status": "partial",
   "theorems": [
    "Verif.CMake.C174_place",
    "Verif.CMake.C174_found_partial",
    "Verif.CMake.C174_negation_path",
    "Verif.CMake.C174_negation_directory",
    "Verif.CMake.C174_negation_names"
   ],
   "note": "C174_found_partial: C174: with the default settings (all headers in a directory with the name of the module, installed in include), the names that can be included once the library is installed are exactly those of the headers of that directory, as they are written in the build, and of the headers made from templates. (Missing: other settings, and other names; see the negations.) C174_negation_path: C174, negation: MODULE_HEADERS_PATH with two names. In the build the header is eprosima/utils/x.hpp, once installed it is utils/x.hpp, though the headers made from templates are where the setting says. C174_negation_directory: C174, negation: headers installed in another directory than include (MODULE_INCLUDE_INSTALL_DIR) are not found at all: the installed target has the include directory include. C174_negation_names: C174, negation: further names that the build knows and the installation does not. A MODULE_HEADERS_INSTALL_PATH of its own moves only the headers made from templates, away from the name utils/library/library_dll.h that the others include them by; a header is known in the build without the name of the module; a header x.hxx is not installed."
  },
  {
   "property": "C175",
   "status": "partial",
   "theorems": [
    "Verif.CMake.C175_tool_partial",
    "Verif.CMake.C175_off",
    "Verif.CMake.C175_library_partial",
    "Verif.CMake.C175_negation_project",
    "Verif.CMake.C175_negation_output",
    "Verif.CMake.C175_negation_both"
   ],
   "note": "C175_tool_partial: C175: compile_tool in a project with the name of the module makes one target, with that name, and leaves all others alone. It has the sources given or, when none are, those found, the include directories given, the dependencies, the definitions for the verbosity, and the output name and directory asked for. (Missing: a project with another name, see C175_negation_project.) C175_library_partial: C175: compile_library makes one target, with the name of the module, and leaves all others alone. It has the sources given or those found, the dependencies, and the definitions. (Missing: the output name asked for, see C175_negation_output.) C175_negation_project: C175, negation: the include directories given to compile_tool go to the target with the name of the project. If that is not the module's, they are an error, or another target gets them, and the tool does not. C175_negation_output: C175, negation: MODULE_TARGET_NAME, \"Output name of the target\" in the README, has no effect on a library. C175_negation_both: C175, negation: a module cannot have a library and a tool, in whatever order: both are targets with its name."
  },
  {
   "property": "C176",
   "status": "partial",
   "theorems": [
    "Verif.CMake.C176_path_partial",
    "Verif.CMake.C176_exact",
    "Verif.CMake.C176_ends_iff",
    "Verif.CMake.C176_negation_through",
    "Verif.CMake.C176_negation_cycle",
    "Verif.CMake.C176_negation_unlisted"
   ],
   "note": "C176_path_partial: C176: on Windows, when there is no interface library, no library passes on what it is not linked to itself, as imported ones do, and no cycle or chain that is too long, the entries of a listed test have in their PATH the directories of all libraries that the test is linked to, directly or through others, before what was in the PATH, which stays; nothing is there twice. (Missing: see the negations.) C176_negation_through: C176, negation: what is behind an interface library, or behind a library whose LINK_LIBRARIES are not set, as imported ones of packages, is used and not found, for every target that is linked to nothing else. C176_negation_cycle: C176, negation: static libraries may use each other, which CMake allows; for every target from which links lead to such a circle the function calls itself until that is an error, whatever the limit. C176_negation_unlisted: C176, negation: the entry of an executable without a list of tests gets no directory at all."
  },
  {
   "property": "C177",
   "status": "partial",
   "theorems": [
    "Verif.CMake.C177_found_partial",
    "Verif.CMake.C177_negation_project",
    "Verif.CMake.C177_negation_dependency"
   ],
   "note": "C177_found_partial: C177: a library of a project with the name of the module, with the directories that configure_project sets, is found by find_package with that name exactly when every dependency is a target already, or one of Fast DDS and Fast CDR, wherever it is installed; then its target is there, and no target is lost. (Missing: other dependencies, and a project with another name; see the negations.) C177_negation_project: C177, negation: if the project has another name than the module, the package cannot be found at all: it includes a file that is not installed. C177_negation_dependency: C177, negation: a dependency, even one given in MODULE_FIND_PACKAGES and installed, is not looked for: ddspipe_core, which needs cpp_utils, is not found, unless the user finds cpp_utils before."
  },
  {
   "property": "C178",
   "status": "partial",
   "theorems": [
    "Verif.TimeShared.C178_guarded_partial",
    "Verif.TimeShared.C178_some_partial",
    "Verif.TimeShared.C178_negation"
   ],
   "note": "C178_guarded_partial: C178: if users hold a mutex of their own during every call, each call gives what it gives in a program with one thread, whatever the time zone, the times and the formats, and while a thread is going to read the object of the library no other thread is, and none can write it. (Missing: calls without such a mutex, see C178_negation.) C178_some_partial: C178: without a mutex a call gives its own result or what it makes of the time that another call of the same execution asked for (as long as the object is written and read as a whole); a failure of the conversion is reported to the call it belongs to. (Missing: that it is its own time.) C178_negation: C178, negation: two threads that convert two times in UTC. Whatever the times, and whatever the formats, the text that the first thread gets may be that of the time of the second, and on the way there is a data race."
  },
  {
   "property": "C179",
   "status": "partial",
   "theorems": [
    "Verif.Usage.C179_function",
    "Verif.Usage.C179_ostream",
    "Verif.Usage.C179_fwrite",
    "Verif.Usage.C179_syscall_partial",
    "Verif.Usage.C179_negation"
   ],
   "note": "C179_syscall_partial: C179 (write): the text arrives whole exactly when the system takes the whole of every piece. Missing: a caller cannot tell which of the two happened (C179_negation). C179_negation: C179 does not hold for printUsage(write, fd, usage): for every text of two pieces whose first has at least two bytes, a short write leaves a hole in the middle of the text, and nothing that the caller can look at differs from a call that wrote the whole text."
  },
  {
   "property": "C180",
   "status": "partial",
   "theorems": [
    "Verif.EventNested.C180_negation_wait",
    "Verif.EventNested.C180_negation_order",
    "Verif.EventNested.C180_calls_return_partial",
    "Verif.EventNested.C180_wait_returns_partial",
    "Verif.EventNested.C180_events_return_partial"
   ],
   "note": "C180_negation_wait: C180 does not hold for wait_for_event: called by a callback of the handler for more events than have been counted, it never returns, whatever the other threads do; and since the callback keeps internal_callback_mutex_, no thread gets past it in unset_callback, set_callback or an event of the handler. C180_negation_order: C180 does not hold for unset_callback and set_callback: if a callback starts with one of them and another thread has called unset_callback, each of the two threads may hold the mutex that the other one needs. No step is possible any more. C180_calls_return_partial: C180, as far as it holds, for the other calls: with callbacks as in C180_events_return_partial, every call of set_callback, unset_callback, event_count, reset_event_count and decrement_event_count by a client returns, whatever the other threads do, which may raise events, set, unset and wait at any time. Missing: callbacks that wait or that set or unset, see the negations; for wait_for_event see C180_wait_returns_partial. C180_wait_returns_partial: C180, for waiting: whatever callbacks do, under fair scheduling a call of wait_for_event(m) returns (to the client, or to the callback that called it) once m events are registered or the callback is unset, unless that ceases to hold before. Missing: that this comes to hold, which it never does for a wait in a callback, see C180_negation_wait. C180_events_return_partial: C180, as far as it holds: if callbacks raise events of their own handler (with arguments that get smaller by some measure, so that the nesting ends), read its count, reset it or decrement it, but do not set, unset or wait, then every event that a client raises is over in the end, with all events within, whatever the other threads do, which may set, unset and wait at any time. Missing: callbacks that wait or that set or unset, see the negations."
  },
  {
   "property": "C181",
   "status": "proved",
   "theorems": [
    "Verif.Counter.C181_counter",
    "Verif.Counter.C181_status",
    "Verif.WaitHandler.C181_value"
   ],
   "note": ""
  },
  {
   "property": "C182",
   "status": "partial",
   "theorems": [
    "Verif.FileSave.C182_exact",
    "Verif.FileSave.C182_reports_partial",
    "Verif.FileSave.C182_negation_rename",
    "Verif.FileSave.C182_rename",
    "Verif.FileSave.C182_negation_link",
    "Verif.FileSave.C182_negation_hard_link"
   ],
   "note": "C182_reports_partial: C182, what holds: if the file watched is a file and not a link, has no other name, and is neither replaced nor removed, then whatever is done to the files, every change of its text is reported. Missing: files that are replaced (C182_negation_rename), symbolic links (C182_negation_link), files with several names (C182_negation_hard_link). C182_negation_rename: C182 fails for files that are replaced, as editors and tools do to save a file safely: whatever the files are, nothing is reported when a file is renamed to the one watched, and its text is the one of the other file then. C182_negation_link: C182 fails for symbolic links: as long as the path watched is a link to another file, no operation is reported, although the text that is read from it changes with every write. C182_negation_hard_link: C182 fails for files with several names: what is written by another name is not reported."
  },
  {
   "property": "C183",
   "status": "partial",
   "theorems": [
    "Verif.FileBurst.C183_order",
    "Verif.FileBurst.C183_noted_partial",
    "Verif.FileBurst.C183_alone",
    "Verif.FileBurst.C183_negation_overflow",
    "Verif.FileBurst.C183_negation_any"
   ],
   "note": "C183_noted_partial: C183, what holds: if the queue has room when the file is modified, then the modification is noted afterwards, once all has been read, whatever occurs and however events are merged: a reader of the file that is called then sees it. Missing: modifications when the queue is full (C183_negation_overflow). C183_negation_overflow: C183 fails when the queue is full: whatever the limit is, as many changes of other files of the directory, no two equal ones after each other, fill it before the watch reads; the file may be modified any number of times then, and nothing is noted, however often the watch reads afterwards: the IN_Q_OVERFLOW that the kernel sends is not looked at (it has no name). C183_negation_any: C183 fails for every file and every limit of the queue: writing to two other files by turns, limit times in all, hides any number of modifications of the file."
  },
  {
   "property": "C184",
   "status": "partial",
   "theorems": [
    "Verif.InitSingleton.C184_last",
    "Verif.InitSingleton.C184_valid_partial",
    "Verif.InitSingleton.C184_shared",
    "Verif.InitSingleton.C184_negation_again"
   ],
   "note": "C184_valid_partial: C184, what holds: a pointer got from get_instance or get_shared_instance is valid as long as initialize is not called again, whatever else is done. Missing: C184_negation_again. C184_negation_again: C184 fails when initialize is called again: whatever was done before, if nobody shares the object then it is destroyed, for ever, and the pointers that get_instance gave dangle; initialize says true all the same."
  },
  {
   "property": "C185",
   "status": "partial",
   "theorems": [
    "Verif.Mangling.C185_remove_partial",
    "Verif.Mangling.C185_add",
    "Verif.Mangling.C185_negation"
   ],
   "note": "C185_remove_partial: C185, what holds: remove_prefix gives something exactly for the names that begin with the prefix and \"/\", and then what follows the prefix; demangle_ros_topic_prefix_from_topic does so with \"rt\". Missing: the slash is not removed, C185_negation. C185_negation: C185 is false: the slash after the prefix, which the documentation says is removed too, is in every result."
  },
  {
   "property": "C186",
   "status": "partial",
   "theorems": [
    "Verif.PoolThrow.C186_accounting",
    "Verif.PoolThrow.C186_loan",
    "Verif.PoolThrow.C186_refused",
    "Verif.PoolThrow.C186_returns_partial",
    "Verif.PoolThrow.C186_single",
    "Verif.PoolThrow.C186_reset",
    "Verif.PoolThrow.C186_negation",
    "Verif.PoolThrow.C186_negation_excess",
    "Verif.PoolThrow.C186_message"
   ],
   "note": "C186_returns_partial: C186, as far as it holds: if no element was built before another failed in the same call, in particular with a batch size of 1 (below), then what a client holds is taken back. Missing: see C186_negation. C186_negation: C186 is false: in a pool of any batch size above 1 that starts empty, if the second element of the first batch cannot be built, then the next loan lends the first, and return_loan of it throws: the element never gets back, and is not deleted with the pool. C186_negation_excess: C186: and a return that is one too many is accepted: nothing is on loan, and the pool, which has one element, then has it twice."
  },
  {
   "property": "C187",
   "status": "partial",
   "theorems": [
    "Verif.ConsumerThrow.C187_order",
    "Verif.ConsumerThrow.C187_consistent",
    "Verif.ConsumerThrow.C187_number",
    "Verif.ConsumerThrow.C187_all_partial",
    "Verif.ConsumerThrow.C187_negation"
   ],
   "note": "C187_all_partial: C187, as far as it holds: if no copy in consume threw, then when no call is under way elements_ready_to_consume is the number of values left, and when it is 0 (wait_all_consumed) all values have been returned. Missing: see C187_negation. C187_negation: C187 is false: once the copy of a value threw in consume, then whatever is called later, at every time a value is left that the counter does not count: when all calls have ended and the counter is 0, so that consume waits and wait_all_consumed returns condition_met, not everything that was added has been returned."
  },
  {
   "property": "C188",
   "status": "partial",
   "theorems": [
    "Verif.OwnerThrow.C188_negation",
    "Verif.OwnerThrow.C188_negation_noexcept",
    "Verif.OwnerThrow.C188_reset_partial",
    "Verif.OwnerThrow.C188_guard",
    "Verif.OwnerThrow.C188_once"
   ],
   "note": "C188_negation: C188 is false: when the deleter throws in reset() the datum is never released: whatever is called afterwards by whatever threads, reset(), the destructor of the owner and a move assignment to it, and lock() of a lessee never return (in the thread that called reset() they are undefined), while the owner and the lessees still report a valid datum, whose deleter has been called. C188_negation_noexcept: C188 is false: an exception of the deleter in the destructor of the owner or in a move assignment ends the program; it cannot be caught. C188_reset_partial: C188, as far as it holds: a deleter that does not throw is called once, the owner is empty afterwards, the mutex is free and lessees get an invalid guard, whichever thread asks. Missing: deleters that throw."
  },
  {
   "property": "C189",
   "status": "partial",
   "theorems": [
    "Verif.DllHeader.C189_api",
    "Verif.DllHeader.C189_link_partial",
    "Verif.DllHeader.C189_negation_config",
    "Verif.DllHeader.C189_negation_two",
    "Verif.DllHeader.C189_negation_dash",
    "Verif.DllHeader.C189_negation_user_export",
    "Verif.DllHeader.C189_again",
    "Verif.DllHeader.C189_silent",
    "Verif.DllHeader.C189_both",
    "Verif.DllHeader.C189_runtime",
    "Verif.DllHeader.C189_elsewhere",
    "Verif.DllHeader.C189_all_dyn"
   ],
   "note": "C189_link_partial: C189, in part: in the configurations Debug and Release a user of the library asks the linker for the file of the library and for nothing else, and the library itself asks for nothing. Missing: the other configurations, see C189_negation_config, and a second library, see C189_negation_two. C189_negation_config: C189 fails for the other configurations: a user of the library asks the linker for a file that is not the one of the library, whatever the library and its version. C189_negation_two: C189 fails for a second library: once a header of a library has asked for its file, the header of no other library asks for anything, because the guard of eProsima_auto_link.h has the same name in all of them. C189_negation_dash: C189 fails for names with a dash: compile_library defines \u2026_DYN_LINK with underscores for a shared library, but no translation unit can include its header. C189_negation_user_export: C189 fails for USERDllExport: neither the library nor its users ever export with it, though compile_library defines a macro for that."
  },
  {
   "property": "C190",
   "status": "partial",
   "theorems": [
    "Verif.CMake.C190_config_partial",
    "Verif.CMake.C190_missing",
    "Verif.CMake.C190_negation_nested",
    "Verif.CMake.C190_negation_string",
    "Verif.CMake.C190_negation_zeros"
   ],
   "note": "C190_config_partial: C190, in part: with a VERSION file that gives three numbers and nothing set before, config.h gives the three numbers (without zeros in front), the version as a text with a v, and the commit that git reports in the directory CMake was started with. Missing: a module in the directory of another, see C190_negation_nested, and versions the project sets, see C190_negation_string and C129_negation. C190_negation_nested: C190 fails for a module that is built in the directory of another (add_subdirectory), which inherits the variables: its config.h gives the numbers, the version and the commit of the outer module, whatever its own VERSION file, its settings and its repository. C190_negation_string: C190 fails for a project that sets its version itself, with the four variables of the README: the text of the version in config.h is empty. C190_negation_zeros: C190: where a number of the version has zeros in front, the macro in config.h, with which the header asks for the library, is another text than MODULE_VERSION_MINOR, with which compile_library names it."
  },
  {
   "property": "C191",
   "status": "partial",
   "theorems": [
    "Verif.CMake.C191_exact",
    "Verif.CMake.C191_any",
    "Verif.CMake.C191_found_partial",
    "Verif.CMake.C191_negation"
   ],
   "note": "C191_found_partial: C191, in part: a module whose version is at least the one asked for is accepted, if the first numbers are the same. Missing: a greater first number, see C191_negation. C191_negation: C191 is false: a version with a greater first number is newer than the least version asked for and is not accepted, whatever the other numbers are."
  },
  {
   "property": "C192",
   "status": "partial",
   "theorems": [
    "Verif.CMake.C192_apart_partial",
    "Verif.CMake.C192_negation_resources",
    "Verif.CMake.C192_negation_license",
    "Verif.CMake.C192_negation_components",
    "Verif.CMake.C192_packaged_partial"
   ],
   "note": "C192_apart_partial: C192, in part: with the usual settings, modules with different names have no installed file in common. Missing: resources, see C192_negation_resources, and the licence on Windows, see C192_negation_license. C192_negation_resources: C192 is false for resources: modules that have a resource of the same name in their resources install it as the same file. C192_negation_license: C192 is false for the licence on Windows, where the directory is the prefix itself for every module: with the directories of set_installation_paths, two modules that both have the default ../LICENSE install it as the same file. C192_negation_components: C192 is false for packages made by components: whatever the architecture, neither the library nor the licence is in the package. C192_packaged_partial: C192, in part: headers and the files for find_package are in the package."
  },
  {
   "property": "C193",
   "status": "partial",
   "theorems": [
    "Verif.Loader.C193_never_stops",
    "Verif.Loader.C193_templates",
    "Verif.Loader.C193_scope",
    "Verif.Loader.C193_found_partial",
    "Verif.Loader.C193_negation_path",
    "Verif.Loader.C193_negation_found"
   ],
   "note": "C193_found_partial: C193, the result: the package is found each time and its directory of modules is in CMAKE_MODULE_PATH exactly once. The full claim allows the project to assign CMAKE_MODULE_PATH and cmake_utils_FOUND in between, see the negations. C193_negation_path: C193 is false, for every installation and every list that does not name the directory itself: once a scope has the package, set(CMAKE_MODULE_PATH \u2026) takes the modules away and asking again does not bring them back. C193_negation_found: C193 is false for cmake_utils_FOUND too: once the scope has the package, if the variable is unset or made false then the package is not found again, although it is there and loaded."
  },
  {
   "property": "C194",
   "status": "partial",
   "theorems": [
    "Verif.FileWatchWin.C194_buffer",
    "Verif.FileWatchWin.C194_reported_partial",
    "Verif.FileWatchWin.C194_negation_below",
    "Verif.FileWatchWin.C194_directory",
    "Verif.FileWatchWin.C194_negation_case",
    "Verif.FileWatchWin.C194_negation_code_page",
    "Verif.FileWatchWin.C194_negation_rename",
    "Verif.FileWatchWin.C194_negation_full",
    "Verif.FileWatchWin.C194_negation_same_text",
    "Verif.FileWatchWin.C194_write"
   ],
   "note": "C194_reported_partial: C194, in part: for a file whose name has ASCII characters only, in the letters the directory has it in, and as long as nothing changes below the directory and the changes fit into the buffer, its modifications and no others are reported, in order. Missing: other names, other letters, directories below, and full buffers, see the negations. C194_negation_below: C194 is false: a file with the same name in any directory below is reported as if it were the file. C194_negation_case: C194 is false: Windows takes names that differ in small and capital letters for the same file, but if the path has it in other letters than the directory, then nothing is ever reported. C194_negation_code_page: C194 is false: the path is in the code page of the system (GetFileAttributesA), the names of changes are in UTF-8. For every code page with one byte for each character, a file with a character that is not ASCII in its name is never reported. C194_negation_rename: C194 is false: a new version that is renamed to the file is not reported, nor is any change that is not a modification in place, whatever the names. C194_negation_full: C194 is false: of changes that do not fit into the buffer of 256 KB none is reported, modifications of the file among them or not, and there is no error. C194_negation_same_text: C194 is false: changes of attributes and of permissions are reported as modifications though the text stays, and so is reading the file, as a callback would, on volumes that keep times of last access."
  },
  {
   "property": "C195",
   "status": "partial",
   "theorems": [
    "Verif.FileStopWin.C195_calls",
    "Verif.FileStopWin.C195_delivered",
    "Verif.FileStopWin.C195_reported",
    "Verif.FileStopWin.C195_quiet",
    "Verif.FileStopWin.C195_returns_partial",
    "Verif.FileStopWin.C195_negation_lost",
    "Verif.FileStopWin.C195_negation_failed",
    "Verif.FileStopWin.C195_negation_silent"
   ],
   "note": "C195_returns_partial: C195, partial: the destructor returns, even if the directory can no longer be watched, provided that _callback_thread is not just between finding nothing to do and waiting when the destructor sets _destory; and if it is, provided that _watch_thread is not between handing over changes and asking for more, and the directory can be watched. C195_negation_lost: C195 is not so: although the directory can be watched and every thread runs whenever it can, the destructor may not return: the notification comes after the callback thread has looked at _destory and before it waits, and there is no other. C195_negation_failed: C195 is not so: when the directory can no longer be watched, the destructor may not return though nothing in the file changed. C195_negation_silent: C195 is not so: once the directory could not be watched for a moment, changes are not reported any more, and nothing says so."
  },
  {
   "property": "C196",
   "status": "partial",
   "theorems": [
    "Verif.Exception.C196_says_partial",
    "Verif.Exception.C196_negation_nul",
    "Verif.Exception.C196_negation_null",
    "Verif.Exception.C196_caught"
   ],
   "note": "C196_says_partial: C196, partial: after any sequence of constructions, copies, assignments and destructions in which objects exist when they are used, no pointer is null and no text has a NUL, every exception says what was given for it, and has the class it was made with. C196_negation_nul: C196 is not so: every message with a NUL loses what follows it. C196_negation_null: C196 is not so: an exception made from a null pointer ends the process, whatever else exists."
  },
  {
   "property": "C197",
   "status": "partial",
   "theorems": [
    "Verif.CMake.C197_parts_partial",
    "Verif.CMake.C197_negation_word",
    "Verif.CMake.C197_tests",
    "Verif.CMake.C197_modules_partial",
    "Verif.CMake.C197_negation_docs",
    "Verif.CMake.C197_top_partial",
    "Verif.CMake.C197_negation_top",
    "Verif.CMake.C197_negation_package"
   ],
   "note": "C197_parts_partial: C197, partial: of the parts that a module has, exactly those are built that the user asks for, by the defaults of the README. Missing: values that are neither a yes nor a no (C197_negation_word). C197_negation_word: C197 is not so: for a word that is no constant of CMake and no variable, -DBUILD_TESTS=<word> builds the tests of the documentation and not the documentation they are for. C197_modules_partial: C197, partial: in a project with several modules, with different names, each has what it has alone, if the documentation of at most one of them is built. Missing: the documentation of two (C197_negation_docs). C197_negation_docs: C197 is not so: a project in which the documentation of two modules is asked for is not accepted. C197_top_partial: C197, partial: in the top build directory ctest runs every test of every module, if the top directory enables testing itself. C197_negation_top: C197 is not so: if it does not, tests are built and none is run, whatever the user says. C197_negation_package: C197 is not so: no package has the documentation, in whichever order the macros are called."
  },
  {
   "property": "C198",
   "status": "partial",
   "theorems": [
    "Verif.CMake.C198_linked_partial",
    "Verif.CMake.C198_found_iff",
    "Verif.CMake.C198_given",
    "Verif.CMake.C198_searched",
    "Verif.CMake.C198_searched_msvc",
    "Verif.CMake.C198_negation_list",
    "Verif.CMake.C198_negation_missing",
    "Verif.CMake.C198_negation_root",
    "Verif.CMake.C198_arch_partial",
    "Verif.CMake.C198_negation_arch",
    "Verif.CMake.C198_directories"
   ],
   "note": "C198_linked_partial: C198, partial: when GoogleMock is found, an executable with tests is linked with its library, in the debug configuration with the one for debugging if there is one, with those of GoogleTest and of threads and with all that are asked for, in this order. Missing: several libraries in GMOCK_LIBRARY (C198_negation_list), and what is found (see the others). C198_negation_list: C198 is not so: of two libraries separated by ; in GMOCK_LIBRARY, which CMake takes as a list, the second is linked in the debug configuration as well if there is one for debugging. C198_negation_missing: C198 is not so: where GoogleMock has only its libraries for debugging, or none, it is not found; that is no error, and executables are linked without it. C198_negation_root: C198 is not so: with a directory given by -DGMOCK_ROOT and another one in the environment, both with the library, the one of the environment is used. C198_arch_partial: C198, on Windows: with EPROSIMA_BUILD the directory looked into first is the one of the architecture below that given. (partial: in the first call; see C198_negation_arch.) C198_negation_arch: C198 is not so: when GoogleMock is not found the first time, the next call, as that of the next directory with tests below, looks into a directory of the architecture below the one of the architecture."
  },
  {
   "property": "C199",
   "status": "partial",
   "theorems": [
    "Verif.Race.C199_eventHandler",
    "Verif.Race.C199_periodic",
    "Verif.Race.C199_worker",
    "Verif.Race.C199_log",
    "Verif.Race.C199_signalManager",
    "Verif.Race.C199_waitHandler",
    "Verif.Race.C199_queueHandler",
    "Verif.Race.C199_dbQueue",
    "Verif.Race.C199_dbQueue_noFront",
    "Verif.Race.C199_random",
    "Verif.Race.C199_safeDatabase_partial",
    "Verif.Race.C199_owner_partial",
    "Verif.Race.C199_pool_partial",
    "Verif.Race.C199_negation_multiple",
    "Verif.Race.C199_negation_begin",
    "Verif.Race.C199_negation_lessee",
    "Verif.Race.C199_negation_pool",
    "Verif.Race.C199_negation_construct",
    "Verif.Race.C199_negation_front"
   ],
   "note": "C199_safeDatabase_partial: C199, SafeDatabase, iterators and calls made while they exist included; begin is missing (C199_negation_begin). C199_owner_partial: C199, OwnerPtr used by one thread at a time and its lessees by any; operator bool of lessees is missing (C199_negation_lessee). C199_pool_partial: C199, SlotThreadPool; enable and disable are missing (C199_negation_pool). C199_negation_multiple: Two threads register handlers in one MultipleEventHandler: both change its list. C199_negation_begin: begin of a SafeDatabase reads the map while another thread writes it. C199_negation_lessee: A lessee is checked while its owner is reset. C199_negation_pool: One thread enables a SlotThreadPool, another disables it as soon as enabled_ is set: the first still appends to threads_ while the second reads it. C199_negation_construct: The thread of the log reads threshold_ of a LogSevereEventHandler while the constructor sets it: the consumer is registered before. C199_negation_front: A consumer of a DBQueue reads what front gave while another consumer pops it."
  },
  {
   "property": "C200",
   "status": "partial",
   "theorems": [
    "Verif.Race.C200_eventHandler_partial",
    "Verif.Race.C200_periodic_partial",
    "Verif.Race.C200_worker_partial",
    "Verif.Race.C200_log_partial",
    "Verif.Race.C200_signalManager_partial",
    "Verif.Race.C200_waitHandler_partial",
    "Verif.Race.C200_queueHandler",
    "Verif.Race.C200_dbQueue",
    "Verif.Race.C200_random",
    "Verif.Race.C200_owner_partial",
    "Verif.Race.C200_pool",
    "Verif.Race.C200_signals_partial",
    "Verif.Race.C200_multiple_partial",
    "Verif.Race.C200_negation_callback",
    "Verif.Race.C200_negation_signalManager",
    "Verif.Race.C200_negation_predicate",
    "Verif.Race.C200_negation_owner",
    "Verif.Race.C200_negation_iterator",
    "Verif.Race.C200_negation_signals"
   ],
   "note": "C200_eventHandler_partial: C200, EventHandler whose callback does not use it. C200_periodic_partial: C200, PeriodicEventHandler, with its thread, whose callback does not use it. C200_worker_partial: C200, FileWatcherHandler, StdinEventHandler, whose callback does not use them. C200_log_partial: C200, LogEventHandler, LogSevereEventHandler, whose callback does not use them. C200_signalManager_partial: C200, SignalManager, with its thread, whose callbacks do not use it. C200_waitHandler_partial: C200, WaitHandler, BooleanWaitHandler, IntWaitHandler, whose predicates do not use them. C200_owner_partial: C200, an OwnerPtr whose deleter uses neither it nor its lessees, and lessees that are used by threads which do not use the owner meanwhile. C200_signals_partial: C200, any number of SignalEventHandlers of one signal with the manager and its thread, whose callbacks do not use them. C200_multiple_partial: C200, a MultipleEventHandler with any number of handlers, whose callback does not use them. C200_negation_callback: A callback of an EventHandler sets a callback while another thread does. C200_negation_signalManager: A callback of a SignalManager registers another. C200_negation_predicate: The predicate of a wait on a WaitHandler calls get_value. C200_negation_owner: The thread that resets an OwnerPtr has a GuardedPtr of one of its lessees. C200_negation_iterator: A thread changes a SafeDatabase while it has an iterator. C200_negation_signals: A callback of a SignalEventHandler unsets it: the thread of the manager holds active_callbacks_mutex_ already."
  },
  {
   "property": "C201",
   "status": "partial",
   "theorems": [
    "Verif.CMakeSource.C201_apart_partial",
    "Verif.CMakeSource.C201_explicit_partial",
    "Verif.CMakeSource.C201_refused_generates_nothing",
    "Verif.CMakeSource.C201_negation_again",
    "Verif.CMakeSource.C201_negation_link",
    "Verif.CMakeSource.C201_negation_module"
   ],
   "note": "C201_apart_partial: C201, partial: a project that is configured, in whichever way cmake was called and whatever was done before, has the build directory of no module in its source directory, if no two texts lead to one directory and modules are added by their names. Missing: symbolic links (C201_negation_link), modules with a build directory given (C201_negation_module). C201_explicit_partial: C201, partial: with -S and -B, a project is configured and its build system generated in the build directory exactly when that is not the source directory, whatever was tried before, if the build directory has not been used for another source and no two texts lead to one directory. C201_negation_again: C201 is not so: once a build in the source directory has been refused, every later cmake <source>, from whichever directory, is refused as well, for ever: the refused call leaves a CMakeCache.txt in the source directory, and cmake takes a directory that has one for a build directory. C201_negation_link: C201 is not so: of two texts of one directory, one given as source and one as build directory, the build is not refused and a build system is generated in the source directory. C201_negation_module: C201 is not so: a module that is added with its source directory as build directory is not refused, and its files are generated there."
  }
 ]
}