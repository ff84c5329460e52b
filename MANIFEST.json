{"claims": [
  {"property": "C01", "status": "proved", "theorems": ["Vlpp.C01_list_is_sequence"], "note": "Refinement of the buffer-level model to mathematical lists over all histories."},
  {"property": "C02", "status": "proved", "theorems": ["Vlpp.C02_list_memory_safe", "Vlpp.C02_no_leak", "Vlpp.C02_list_cells_safe"], "note": "On an explicit heap with malloc/free: every program over any family of lists including moves, self-moves and destruction; no leak, no double release, values of mathematical sequences. C02_list_cells_safe is the version without heap."},
  {"property": "C03", "status": "partial", "theorems": ["Vlpp.C03_insert_own_element_partial", "Vlpp.C03_insert_own_violated", "Vlpp.C03_insert_own_at_self_violated", "Vlpp.C03_insert_own_after_violated"], "note": "Holds only when the list has spare capacity and the element lies before the insertion point; the other cases are proved to be violated (use of released or destroyed element, or wrong element inserted)."},
  {"property": "C04", "status": "partial", "theorems": ["Vlpp.C04_removeRange_rejects_partial", "Vlpp.C04_removeRange_negative_violated"], "note": "Proved for non-negative counts; for negative counts the checks pass and the behaviour is undefined (violation proved)."},
  {"property": "C05", "status": "proved", "theorems": ["Vlpp.C05_array", "Vlpp.C05_array_from", "Vlpp.C05_array_negative_size", "Vlpp.C05_array_safe"], "note": "Refinement over all histories; elements of trivially constructible types created by Array(n)/Resize are indeterminate, reading them is the only undefined case (C05_array states this exactly)."},
  {"property": "C06", "status": "proved", "theorems": ["Vlpp.C06_sortedlist", "Vlpp.C06_multiset", "Vlpp.C06_sortedlist_memory"], "note": "Buffer-level model refines the sorted multiset specification over all histories, for every total preorder of keys; also for programs over many sorted lists on one heap, without leaks."},
  {"property": "C07", "status": "proved", "theorems": ["Vlpp.C07_search", "Vlpp.C07_search_any_comparator", "Vlpp.C07_indexOf_first_violated"], "note": "Search result correct for every ascending list, safe and terminating for any comparator; the documented 'first' index is shown not to hold."},
  {"property": "C08", "status": "partial", "theorems": ["Vlpp.C08_copy_partial", "Vlpp.C08_copy_violated"], "note": "SortedList's copy constructor empties the const source (violation proved for every non-empty source); the copy has the right elements and both objects stay valid. List, Array, Dictionary and Group have deleted copy constructors."},
  {"property": "C09", "status": "proved", "theorems": ["Vlpp.C09_dictionary", "Vlpp.C09_error_unchanged"], "note": "Every history, any total preorder of keys; keys and values are modelled as the sequences C01/C06 prove they store."},
  {"property": "C10", "status": "partial", "theorems": ["Vlpp.C10_enumerate_partial", "Vlpp.C10_reset_violated", "Vlpp.C10_clone_violated"], "note": "Enumeration and Next/clone-before-use proved for every dictionary reached by any history. Reset and Clone of a started enumerator are false of the code: proved negations."},
  {"property": "C100", "status": "proved", "theorems": ["Vlpp.C100_refines", "Vlpp.C100_lifetime", "Vlpp.C100_disposed", "Vlpp.C100_stable", "Vlpp.C100_no_leak"], "note": "OnDisposed is any sequence of operations; it does not throw, and destructors of references do nothing"},
  {"property": "C101", "status": "partial", "theorems": ["Vlpp.C101_lists_partial", "Vlpp.C101_call", "Vlpp.C101_removeRange_violated", "Vlpp.C101_search", "Vlpp.C101_strings", "Vlpp.C101_strings_violated", "Vlpp.C101_array", "Vlpp.C101_array_violated", "Vlpp.C101_range_partial", "Vlpp.C101_range_violated", "Vlpp.C101_take"], "note": "False as stated, negations proved: RemoveRange, Sub and Remove add index and count before they compare (undefined for an index in range and a count near 2^63), Array(size) wraps sizeof(T) * size and does not check malloc, Range is undefined if it starts at the smallest or ends at the largest number, Take for the smallest count. Proved: exactly which calls on a list, of Sub, Remove and Take are undefined, and that all others behave as with unbounded numbers; the search never overflows; a history of calls is C01 if memory for 5/4 of the number of calls is available."},
  {"property": "C102", "status": "partial", "theorems": ["Vlpp.C102_statement", "Vlpp.C102_owned_partial", "Vlpp.C102_no_leak", "Vlpp.C102_careful", "Vlpp.C102_evaluate", "Vlpp.C102_violated_loop", "Vlpp.C102_violated_intersect"], "note": "Violated: if the first Next of a range-based loop (also Aggregate(init, f), All, Any) throws, or the copying constructor of Intersect/Except, the enumerator with all it owns is lost. Proved for every program: never undefined, one owner, a statement that throws loses only what it made; nothing is lost if nothing throws, nor whatever throws in programs without those statements; when Evaluate shares the enumerator. Capture of lazy lists by SelectMany and GroupBy is not modelled."},
  {"property": "C103", "status": "partial", "theorems": ["Vlpp.C103_work_partial", "Vlpp.C103_exact", "Vlpp.C103_allocations", "Vlpp.C103_memory", "Vlpp.C103_held", "Vlpp.C103_violated_nine", "Vlpp.C103_violated_memory"], "note": "The work and the number of allocations are as stated (C103_work_partial, C103_allocations, with the exact cost of every call in C103_exact). The buffer is bounded by the largest number of elements the list ever had (C103_memory), not by the present number: a list that keeps nine elements keeps its whole buffer (C103_held), so the last part of the statement is false (C103_violated_nine, C103_violated_memory)."},
  {"property": "C104", "status": "partial", "theorems": ["Vlpp.C104_defined_partial", "Vlpp.C104_alive_partial", "Vlpp.C104_exact_partial", "Vlpp.C104_no_leak_partial", "Vlpp.C104_finishes_partial", "Vlpp.C104_refines_partial", "Vlpp.C104_complete_partial", "Vlpp.C104_violated_own_member", "Vlpp.C104_violated", "Vlpp.C104_violated_race"], "note": "Proved for all programs without p = p->member (C104_statement is the full statement of definedness, refuted by C104_violated). The copy assignment of Ptr releases the old object before it reads the argument, so with p = p->next and p the only pointer to the node, the argument is read from a deleted object; with another thread holding the node it depends on the schedule. Sequentially consistent atomics; handing over a pointer is synchronised; members do not change after construction, so the graphs have no cycles."},
  {"property": "C105", "status": "partial", "theorems": ["Vlpp.C105_go_partial", "Vlpp.C105_select_attempts_partial", "Vlpp.C105_violated_skip", "Vlpp.C105_violated_take", "Vlpp.C105_violated_pairwise", "Vlpp.C105_violated_pairwise_end", "Vlpp.C105_violated"], "note": "Proved for all compositions in which Take is applied to something whose Index counts only delivered elements, nothing throws below Skip, and the first sequence of Pairwise is only data. The other cases are violated: Skip delivers elements it had to skip, Take delivers fewer, Pairwise pairs elements of different positions and calls functions after the end. Reverse, Intersect, Except, SelectMany and Evaluate, which enumerate while the lazy list is made, are not part of it."},
  {"property": "C106", "status": "partial", "theorems": ["Vlpp.C106_run_partial", "Vlpp.C106_lifetime_partial", "Vlpp.C106_own_partial", "Vlpp.C106_busy_undefined", "Vlpp.C106_violated", "Vlpp.C106_violated_copy", "Vlpp.C106_violated_null", "Vlpp.C106_violated_move", "Vlpp.C106_violated_test"], "note": "Proved for all programs as long as no statement uses a pointer that is just being assigned, in particular for all programs whose destructors use only their own members; for other programs the property is false (C106_violated): Dec deletes before it sets the pointer to null. C106_busy_undefined: every such assignment is undefined behaviour."},
  {"property": "C107", "status": "partial", "theorems": ["Vlpp.C107_local_time", "Vlpp.C107_from_internal", "Vlpp.C107_forward", "Vlpp.C107_cancel", "Vlpp.C107_convert", "Vlpp.C107_to_utc_partial", "Vlpp.C107_utc_partial", "Vlpp.C107_violated", "Vlpp.C107_from_date_time", "Vlpp.C107_violated_repeated"], "note": "Everything but UTC is proved for every zone. Violated while daylight saving time is in effect: gmtime stores tm_isdst 0, mktime takes the UTC members for standard time, so UtcTime and ToUtcTime display a time that is later than UTC by what is saved (C107_to_utc_partial says exactly when). Members that clocks show twice do not identify the time (C107_violated_repeated)."},
  {"property": "C108", "status": "partial", "theorems": ["Vlpp.C108_now", "Vlpp.C108_to_local", "Vlpp.C108_to_utc_partial", "Vlpp.C108_violated"], "note": "ToUtcTime of LocalTime is proved for local times that clocks show once; violated for those shown twice, whatever Windows does, because the date-time stores only what is displayed."},
  {"property": "C109", "status": "partial", "theorems": ["Vlpp.C109_questions", "Vlpp.C109_sorted", "Vlpp.C109_thrown", "Vlpp.C109_retry", "Vlpp.C109_nested", "Vlpp.C109_group_error", "Vlpp.C109_again_partial", "Vlpp.C109_violated"], "note": "Everything about InitWithFunc is proved. The part about an Error of InitWithGroup is violated by the code (C109_violated): the dependencies read before the Error stay in the processor. C109_again_partial says exactly what is sorted then, for a second initialisation with at least as many items."},
  {"property": "C11", "status": "proved", "theorems": ["Vlpp.C11_group"], "note": "Value lists live on a heap; every history, any total preorder of keys. The result of Remove(key,value) is the subject of C12."},
  {"property": "C110", "status": "proved", "theorems": ["Vlpp.C110_same", "Vlpp.C110_linear", "Vlpp.C110_deep"], "note": "Counters (calls, rounds of loops, active calls) are added to the model of Sort and proved not to change what it does; the bounds are equations for every processor made by InitWithGroup. Work of Resize and components.Add is not counted."},
  {"property": "C111", "status": "partial", "theorems": ["Vlpp.C111_alternate", "Vlpp.C111_exit_partial", "Vlpp.C111_finalized", "Vlpp.C111_violated", "Vlpp.C111_violated_global", "Vlpp.C111_terminated"], "note": "Alternation and single destruction in every execution up to the end of the program; exact sequence of finalisers if they use only older initialised storages; nothing happens at the end after FinalizeGlobalStorage with finalisers in its order; exceptions at the end terminate. Violated otherwise: C111_violated shows undefined behaviour for every program in which a finaliser first uses a younger storage, C111_violated_global for FinalizeGlobalStorage called by the destructor of a global variable. Not modelled: finalisers that throw, threads, static variables constructed in main other than storages."},
  {"property": "C112", "status": "proved", "theorems": ["Vlpp.C112_from", "Vlpp.C112_to", "Vlpp.C112_replaced", "Vlpp.C112_malformed", "Vlpp.C112_empty", "Vlpp.C112_windows_empty"], "note": "Code pages with best fit characters and UTF-8 as the code page of a thread are not modelled."},
  {"property": "C113", "status": "partial", "theorems": ["Vlpp.C113_wide_partial", "Vlpp.C113_char_partial", "Vlpp.C113_violated_delimiter", "Vlpp.C113_violated_lost"], "note": "Missing: encodings in which a byte of a delimiter occurs in other characters, and names that cannot be represented; both are violations (C113_violated_delimiter, C113_violated_lost)."},
  {"property": "C114", "status": "partial", "theorems": ["Vlpp.C114_calls_partial", "Vlpp.C114_throws", "Vlpp.C114_violated_change", "Vlpp.C114_violated_unordered"], "note": "Proved for callbacks that do anything (also throw) but change the groups, and keys with a total order. Missing, with proved negations: a callback that removes keys makes the join raise an Error (the counts are those at the beginning), and keys that are not comparable are accepted as equal."},
  {"property": "C115", "status": "partial", "theorems": ["Vlpp.C115_call_partial", "Vlpp.C115_again", "Vlpp.C115_exit", "Vlpp.C115_violated_rest", "Vlpp.C115_violated_exit"], "note": "Proved: what one call does, that calling it again until it returns finalises everything exactly once in the order of registration, and that then the destructors do nothing. Finalisers do not access storages here (C51 has those). Missing, with proved negations: one call stops at the first exception and leaves the later storages initialised; an exception in the destructor of a storage terminates the program."},
  {"property": "C12", "status": "partial", "theorems": ["Vlpp.C12_remove_result_partial", "Vlpp.C12_remove_result_violated"], "note": "Violated: returns true when the key exists but the value does not (witness). The effect and the other results are proved."},
  {"property": "C13", "status": "partial", "theorems": ["Vlpp.C13_enumerate_partial", "Vlpp.C13_reset_violated"], "note": "Enumeration, order and Index proved for every group reached by any history; Reset is false of the code (universal negation for every group: it raises an Error)."},
  {"property": "C14", "status": "proved", "theorems": ["Vlpp.C14_groupInnerJoin"], "note": "Callbacks assumed not to modify the groups and not to throw."},
  {"property": "C15", "status": "proved", "theorems": ["Vlpp.C15_sort"], "note": "SortLambda on any part of any buffer, every total preorder."},
  {"property": "C16", "status": "proved", "theorems": ["Vlpp.C16_sort_any_comparison"], "note": "Arbitrary comparison, including one that answers unordered; depth at most log2(n)+1."},
  {"property": "C17", "status": "proved", "theorems": ["Vlpp.C17_select_where_concat_pairwise", "Vlpp.C17_any_use"], "note": "For every program built from the modelled sources and operators (inductive type Pipe); C17_any_use covers every script of Next/Reset/Clone."},
  {"property": "C18", "status": "partial", "theorems": ["Vlpp.C18_take_skip_partial", "Vlpp.C18_take_violated"], "note": "Proved for every source except Take(0) over a source whose Index() starts below -1 (after Skip), where the code is wrong: negation proved."},
  {"property": "C19", "status": "partial", "theorems": ["Vlpp.C19_repeat_partial", "Vlpp.C19_repeat_violated"], "note": "Proved for sources whose Reset works; a dictionary or group as source raises an Error: negation proved."},
  {"property": "C20", "status": "proved", "theorems": ["Vlpp.C20_distinct"], "note": "Every source, every total preorder of elements."},
  {"property": "C21", "status": "proved", "theorems": ["Vlpp.C21_reverse"], "note": "Every source."},
  {"property": "C22", "status": "proved", "theorems": ["Vlpp.C22_set_operations"], "note": "Every pair of sources, every total preorder of elements."},
  {"property": "C23", "status": "proved", "theorems": ["Vlpp.C23_aggregates"], "note": "Every source."},
  {"property": "C24", "status": "proved", "theorems": ["Vlpp.C24_selectMany", "Vlpp.C24_groupBy"], "note": "SelectMany and GroupBy, with the partition statement as a permutation."},
  {"property": "C25", "status": "proved", "theorems": ["Vlpp.C25_orderBy", "Vlpp.C25_orderByKey", "Vlpp.C25_orderBySelf"], "note": "Every source, every total preorder and key selector."},
  {"property": "C26", "status": "proved", "theorems": ["Vlpp.C26_compareEnumerable"], "note": "Order laws and the result of CompareEnumerable on every pair of sources."},
  {"property": "C27", "status": "proved", "theorems": ["Vlpp.PO.C27_components_group", "Vlpp.PO.C27_components_func", "Vlpp.PO.C27_unknown_item"], "note": "InitWithGroup and InitWithFunc, then Sort, for items of type List or Array; InitWithSubClass is not modelled. Termination of the recursion is part of the theorem."},
  {"property": "C28", "status": "proved", "theorems": ["Vlpp.PO.C28_dependencies_first_group", "Vlpp.PO.C28_dependencies_first_func"], "note": "InitWithGroup and InitWithFunc, then Sort; InitWithSubClass is not modelled."},
  {"property": "C29", "status": "proved", "theorems": ["Vlpp.Utf.C29_utf8_round_trip", "Vlpp.Utf.C29_utf8_rejects", "Vlpp.Utf.C29_utf8_standard"], "note": "for characters the bytes are also those of Lean's own UTF-8 encoder"},
  {"property": "C30", "status": "proved", "theorems": ["Vlpp.Utf.C30_utf16_encode", "Vlpp.Utf.C30_utf16_domain", "Vlpp.Utf.C30_utf16_decode", "Vlpp.Utf.C30_utf16_round_trip", "Vlpp.Utf.C30_utf16_reencode"], "note": ""},
  {"property": "C31", "status": "proved", "theorems": ["Vlpp.Utf.C31_swap_bytes", "Vlpp.Utf.C31_swap_twice", "Vlpp.Utf.C31_utf16be_encode", "Vlpp.Utf.C31_utf16be_decode", "Vlpp.Utf.C31_utf16be_round_trip"], "note": ""},
  {"property": "C32", "status": "proved", "theorems": ["Vlpp.Utf.C32_u32_u8_u32", "Vlpp.Utf.C32_u32_u16_u32", "Vlpp.Utf.C32_u8_u16", "Vlpp.Utf.C32_wide", "Vlpp.Utf.C32_utf8_standard"], "note": "configuration VCZH_WCHAR_UTF32"},
  {"property": "C33", "status": "proved", "theorems": ["Vlpp.Utf.C33_exact_decode", "Vlpp.Utf.C33_exact_encode", "Vlpp.Utf.C33_exact_transcode", "Vlpp.Utf.C33_exact_direct"], "note": "all readers of _utftoutf, every zero terminated text; a write outside of the destination or a read behind the terminator would be the result none"},
  {"property": "C34", "status": "partial", "theorems": ["Vlpp.Utf.C34_utf16", "Vlpp.Utf.C34_utf16_text", "Vlpp.Utf.C34_utf8_cut_partial", "Vlpp.Utf.C34_utf8_surrogates_violated", "Vlpp.Utf.C34_utf8_continuation_violated", "Vlpp.Utf.C34_utf8_overlong_violated"], "note": "UTF-16 has the property; UTF-8 decoding accepts surrogates, wrong and stray continuation bytes and overlong forms (violated); it rejects exactly sequences cut off by the end"},
  {"property": "C35", "status": "partial", "theorems": ["Vlpp.Utf.C35_clusters_string", "Vlpp.Utf.C35_clusters_range_partial", "Vlpp.Utf.C35_clusters_transcode", "Vlpp.Utf.C35_clusters_encode", "Vlpp.Utf.C35_clusters_direct", "Vlpp.Utf.C35_zero_in_range_violated"], "note": "proved for zero terminated texts and for ranges without zero units; violated for ranges that contain a zero unit"},
  {"property": "C36", "status": "partial", "theorems": ["Vlpp.C36_sequences_partial", "Vlpp.C36_indexOf", "Vlpp.C36_violated_sub", "Vlpp.C36_violated_remove"], "note": "Every operation of every legal history returns the list operation, or an Error exactly for out-of-range arguments; Sub/Remove with negative counts raise no Error (violated, proved universally)."},
  {"property": "C37", "status": "proved", "theorems": ["Vlpp.C37_immutable"], "note": "For every legal history and every next operation, also when it raises an Error."},
  {"property": "C38", "status": "proved", "theorems": ["Vlpp.C38_buffers"], "note": "Legal histories never fault (a second release is a fault); released iff unreferenced; counter = number of references."},
  {"property": "C39", "status": "proved", "theorems": ["Vlpp.C39_buffer"], "note": "For every object of every legal history."},
  {"property": "C40", "status": "proved", "theorems": ["Vlpp.C40_compare", "Vlpp.C40_compareWithPtr", "Vlpp.C40_order"], "note": "Comparison = lexicographic comparison of the characters, no access outside; order laws."},
  {"property": "C41", "status": "partial", "theorems": ["Vlpp.C41_i64", "Vlpp.C41_u64", "Vlpp.C41_i32_partial", "Vlpp.C41_u32_partial", "Vlpp.C41_violated_itoa", "Vlpp.C41_violated_utoa"], "note": "Proved for the 64-bit functions over the whole range, and for itoa/atoi, utoa/atou within 32 bits. Violated beyond: itoa/utoa take vint/vuint (64 bits), atoi_test/atou_test reject them."},
  {"property": "C42", "status": "proved", "theorems": ["Vlpp.C42_atoi", "Vlpp.C42_atoi64", "Vlpp.C42_atou", "Vlpp.C42_atou64"], "note": "For every string, narrow and wide. The range of atoi/atou is that of 32 bits."},
  {"property": "C43", "status": "partial", "theorems": ["Vlpp.C43_history_partial", "Vlpp.C43_step", "Vlpp.C43_assignCopy", "Vlpp.C43_assignMove", "Vlpp.C43_assignNull", "Vlpp.C43_destroy", "Vlpp.C43_newObject", "Vlpp.C43_copyCtor", "Vlpp.C43_moveCtor", "Vlpp.C43_castCtor", "Vlpp.C43_violated_cycle"], "note": "For every history: defined exactly if no assignment deletes the object that contains its left or right hand side; then exactly the objects without owner are deleted and counters are exact. Violated otherwise: the assignment releases before it has finished (C43_violated_cycle, see also C44)."},
  {"property": "C44", "status": "partial", "theorems": ["Vlpp.C44_assign_partial", "Vlpp.C44_violated", "Vlpp.C44_violated_move"], "note": "Safe if the object has another owner; undefined behaviour in every state in which p is its only owner."},
  {"property": "C45", "status": "partial", "theorems": ["Vlpp.C45_detach_partial", "Vlpp.C45_violated", "Vlpp.C45_violated_dangling"], "note": "Holds for the only pointer to an object (the counter is leaked). Violated whenever the object is shared: the pointer keeps its fields but is no longer counted."},
  {"property": "C46", "status": "proved", "theorems": ["Vlpp.C46_schedules"], "note": "Sequentially consistent interleavings of atomic steps; any number of threads, programs and schedules."},
  {"property": "C47", "status": "partial", "theorems": ["Vlpp.C47_history_partial", "Vlpp.C47_step_partial", "Vlpp.C47_violated"], "note": "Refinement to optional values over every history with every failure point of element constructors and assignments, for all traits of T; objects left behind when a variable goes away are faults. Missing: a = a.Value() for a T without copy assignment, which is undefined behaviour (C47_violated)."},
  {"property": "C48", "status": "partial", "theorems": ["Vlpp.C48_history_partial", "Vlpp.C48_step_partial", "Vlpp.C48_violated", "Vlpp.C48_violated_inside"], "note": "Every history with every failure point of element constructors and assignments, except assignments that replace the alternative and fail (C48_violated: no alternative is alive and the destructor is undefined) and assignments from inside the target (C48_violated_inside)."},
  {"property": "C49", "status": "partial", "theorems": ["Vlpp.C49_history_partial", "Vlpp.C49_raise_partial", "Vlpp.C49_violated_remove", "Vlpp.C49_violated_add", "Vlpp.C49_violated_destroyed"], "note": "Histories of Add/Remove/IsAttached/raise with callbacks that leave the event alone: exactly the current handlers run, once each. Violated when a callback removes or adds handlers during the raise, and IsAttached stays true after the event is destroyed."},
  {"property": "C50", "status": "partial", "theorems": ["Vlpp.C50_same_partial", "Vlpp.C50_violated", "Vlpp.C50_violated_two"], "note": "Every handler receives the caller's values unless a by-value parameter is passed a temporary: then the k-th handler sees it moved k times (violated)."},
  {"property": "C51", "status": "partial", "theorems": ["Vlpp.C51_alternate", "Vlpp.C51_ready_partial", "Vlpp.C51_terminates", "Vlpp.C51_finalized_partial", "Vlpp.C51_violated_finaliser", "Vlpp.C51_violated_throws", "Vlpp.C51_violated_cycle"], "note": "Initialisation and finalisation alternate in every execution; use only when ready for acyclic non-throwing initialisers; all are finalised if finalisers access only later storages. Violated otherwise: three witnesses."},
  {"property": "C52", "status": "partial", "theorems": ["Vlpp.C52_verdict_partial", "Vlpp.C52_options", "Vlpp.C52_continues", "Vlpp.C52_continues_category", "Vlpp.C52_violated_category", "Vlpp.C52_violated_swallow"], "note": "Verdict of the runner is sound for every tree of tests without catch-alls; violated by an assertion directly in a category and by a test that swallows the assertion's exception."},
  {"property": "C53", "status": "partial", "theorems": ["Vlpp.C53_split_join", "Vlpp.C53_join_split_partial", "Vlpp.C53_violated_split", "Vlpp.C53_from_internal", "Vlpp.C53_cancel", "Vlpp.C53_moves", "Vlpp.C53_order_partial", "Vlpp.C53_violated_order"], "note": "Cancelling, splitting and joining hold for every value; the order holds from 1970 on (Gregorian calendar, fixed distance from UTC) and is violated by dates before 1970."},
  {"property": "C54", "status": "proved", "theorems": ["Vlpp.C54_table", "Vlpp.C54_text", "Vlpp.C54_length"], "note": "LoremIpsum stays inside its buffer, terminates and writes the number of whole words nearest to the request; the table is that of the code"},
  {"property": "C55", "status": "proved", "theorems": ["Vlpp.C55_history", "Vlpp.C55_negative"], "note": "all histories of any number of allocators; block sizes > 0; negative indices are undefined"},
  {"property": "C56", "status": "proved", "theorems": ["Vlpp.C56_history"], "note": "all histories of any number of maps sharing an allocator"},
  {"property": "C57", "status": "proved", "theorems": ["Vlpp.C57_sources", "Vlpp.C57_list", "Vlpp.C57_sortedList", "Vlpp.C57_array", "Vlpp.C57_dictionary", "Vlpp.C57_group"], "note": "Every target kind and every source; dictionary as a target replaces equal keys."},
  {"property": "C58", "status": "partial", "theorems": ["Vlpp.C58_case_partial", "Vlpp.C58_violated"], "note": "Holds exactly if the string has no zero and the mapped characters fit in a char; violated in every other case because of the cast to char."},
  {"property": "C59", "status": "proved", "theorems": ["Vlpp.C59_tuple_lex", "Vlpp.C59_pair_lex", "Vlpp.C59_tuple_order", "Vlpp.C59_pair_order"], "note": "Every arity, heterogeneous element types, also partially ordered elements (unordered results)."},
  {"property": "C60", "status": "partial", "theorems": ["Vlpp.C60_clone_partial", "Vlpp.C10_clone_violated"], "note": "Every program and position except direct enumeration of a dictionary or group, where Clone loses the current pair (negation proved)."},
  {"property": "C61", "status": "partial", "theorems": ["Vlpp.C61_category_partial", "Vlpp.C61_violated"], "note": "Proved unless all elements are strongly ordered; then the category is partial_ordering (C61_violated)."},
  {"property": "C62", "status": "partial", "theorems": ["Vlpp.C62_fields_partial", "Vlpp.C62_violated"], "note": "From 1970 on; violated by every date before 1970. Gregorian calendar, fixed distance from UTC."},
  {"property": "C63", "status": "proved", "theorems": ["Vlpp.C63_cancel"], "note": "Library functions are those of a place with a fixed distance from UTC."},
  {"property": "C64", "status": "partial", "theorems": ["Vlpp.C64_paragraph_partial", "Vlpp.C64_violated"], "note": "termination, length bound and the possible endings proved for all random numbers; the text may end with a comma (violated)"},
  {"property": "C65", "status": "proved", "theorems": ["Vlpp.PO.C65_classes", "Vlpp.PO.C65_edges", "Vlpp.PO.C65_components", "Vlpp.PO.C65_unknown_object", "Vlpp.PO.C65_violated_duplicates"], "note": "For pairwise different items. C65_violated_duplicates shows that this hypothesis is needed: the same object twice gives two nodes that both refer to the first position."},
  {"property": "C66", "status": "proved", "theorems": ["Vlpp.C66_history", "Vlpp.C66_lifetime", "Vlpp.C66_no_leak"], "note": "Refinement of Func on Ptr to functors as values, over every history; lifetime of functor objects; no leaks."},
  {"property": "C67", "status": "partial", "theorems": ["Vlpp.C67_callable_partial", "Vlpp.C67_violated"], "note": "Holds if no constructor is given a null function pointer or null object; violated by Func(nullptr) after every history."},
  {"property": "C68", "status": "partial", "theorems": ["Vlpp.C68_running_partial", "Vlpp.C68_violated"], "note": "Defined exactly if some variable still holds the functor afterwards; violated whenever the functor clears the only Func that holds it."},
  {"property": "C69", "status": "proved", "theorems": ["Vlpp.C69_ftoa", "Vlpp.C69_special"], "note": "For every finite binary64 and the special ones, with the %f of the C standard (exact, ties to even)."},
  {"property": "C70", "status": "partial", "theorems": ["Vlpp.C70_decimal", "Vlpp.C70_double_partial", "Vlpp.C70_exact", "Vlpp.C70_violated"], "note": "The numeral direction holds. The double direction holds for numbers with at most six decimals and from 2^33 on (C70_exact says exactly which numbers come back); the code violates it for the others, e.g. every number between 0 and 0.0000005."},
  {"property": "C71", "status": "partial", "theorems": ["Vlpp.C71_numeral", "Vlpp.C71_test_partial", "Vlpp.C71_violated"], "note": "Exact description of what is accepted: additionally the empty string and numerals after spaces, which is a violation (C71_violated). Values are proved correctly rounded."},
  {"property": "C72", "status": "partial", "theorems": ["Vlpp.C72_case_partial", "Vlpp.C72_violated"], "note": "Holds for strings of ASCII characters without zero; the code violates it otherwise (negative arguments of tolower are undefined behaviour, a zero ends the string)."},
  {"property": "C73", "status": "partial", "theorems": ["Vlpp.C73_assignCopy", "Vlpp.C73_assignMove", "Vlpp.C73_assignNull", "Vlpp.C73_assignRaw", "Vlpp.C73_destroy", "Vlpp.C73_copyCtor", "Vlpp.C73_moveCtor", "Vlpp.C73_create", "Vlpp.C73_addRef", "Vlpp.C73_release", "Vlpp.C73_ofRaw", "Vlpp.C73_step", "Vlpp.C73_history_partial", "Vlpp.C73_violated_cycle"], "note": "All histories: defined iff no assignment deletes the object that contains one of its sides, then all counts are right; what each operation deletes. Self-owning members are violations."},
  {"property": "C74", "status": "partial", "theorems": ["Vlpp.C74_assign_partial", "Vlpp.C74_violated", "Vlpp.C74_violated_list"], "note": "Violated whenever p holds the only reference; proved if the object survives."},
  {"property": "C75", "status": "partial", "theorems": ["Vlpp.C75_forEach_partial", "Vlpp.C75_pipe", "Vlpp.C75_violated", "Vlpp.C75_violated_select"], "note": "Proved for every enumerable, body and way to leave the loop, including nested loops; false if the first call of Next raises an Error (the enumerator leaks), which is proved."},
  {"property": "C76", "status": "proved", "theorems": ["Vlpp.C76_dictionaries", "Vlpp.C76_no_leak", "Vlpp.C76_dictionaries_cells"], "note": "On explicit heaps: every program over any number of dictionaries including moves, self-moves and destruction; results of finite maps, exactly the buffers of the dictionaries live, nothing left at the end. Count() is keys.Count(); the theorem gives it as the number of keys stored. C76_dictionaries_cells is the version without heap."},
  {"property": "C77", "status": "partial", "theorems": ["Vlpp.C77_own_value_partial", "Vlpp.C77_violated_full", "Vlpp.C77_violated_after"], "note": "holds for present keys and for new keys with room and k2 before k; otherwise violated (undefined behaviour or the value of another key)"},
  {"property": "C78", "status": "proved", "theorems": ["Vlpp.C78_arrays", "Vlpp.C78_no_leak", "Vlpp.C78_defined"], "note": "On an explicit heap, for class types and for trivial types (whose new elements have no value: reading them is outside of the theorem, as it is undefined). C78_defined: with a default constructor that gives a value the hypothesis always holds."},
  {"property": "C79", "status": "proved", "theorems": ["Vlpp.C79_groups", "Vlpp.C79_no_leak"], "note": "On an explicit heap (buffers of keys, of pointers and of value lists, and the value lists allocated with new). What Remove(key, value) returns is left out here: see C12. Arguments do not live in the group."},
  {"property": "C80", "status": "partial", "theorems": ["Vlpp.C80_arguments_partial", "Vlpp.C80_violated"], "note": "Proved for all calls and arguments except one case, which is characterised exactly: g.Add(k, g[k][m]) on the same key when the list of k has no room left is undefined behaviour (reads the released buffer); C80_violated is a three-line program that does it. Only const& overloads."},
  {"property": "C81", "status": "partial", "theorems": ["Vlpp.C81_list_partial", "Vlpp.C81_array_partial", "Vlpp.C81_violated_list", "Vlpp.C81_violated_sorted", "Vlpp.C81_violated_array", "Vlpp.C81_violated_resize"], "note": "Proved for every program in which assignments throw or insertions are refused before the element is constructed. Violated otherwise, for every state: a constructor that throws during Add or Insert leaves a list that counts an element that does not exist (destroying, clearing, assigning to it is undefined behaviour), one that throws during Resize or in a constructor of Array loses the new buffer, and Resize leaves the elements moved-from. Moves and destructors of elements do not throw."},
  {"property": "C82", "status": "proved", "theorems": ["Vlpp.Utf.C82_conversions", "Vlpp.Utf.C82_unique", "Vlpp.Utf.C82_same_units"], "note": "All 12 functions in both configurations of wchar_t, as one statement over pairs of string classes."},
  {"property": "C83", "status": "proved", "theorems": ["Vlpp.Utf.C83_wtoa", "Vlpp.Utf.C83_atow", "Vlpp.Utf.C83_atow_invalid", "Vlpp.Utf.C83_round_trip"], "note": "For every stateless encoding of the C library; wcstombs and mbstowcs are modelled as in the C standard. Linux implementation."},
  {"property": "C84", "status": "partial", "theorems": ["Vlpp.C84_fields", "Vlpp.C84_order", "Vlpp.C84_undefined", "Vlpp.C84_from_internal_partial", "Vlpp.C84_violated_internal", "Vlpp.C84_cancel", "Vlpp.C84_time_zone"], "note": "Proved: members, day of week, internal values, the order of all moments (also before 1970), cancellation of Forward/Backward and of the time zone conversions. Violated: FromOSInternal drops what is below a millisecond, so UtcTime's value is not kept; FromDateTime of dates that do not exist and FromOSInternal from the year 30828 on use uninitialised variables (C84_undefined and C84_violated_internal say exactly when)."},
  {"property": "C85", "status": "partial", "theorems": ["Vlpp.C85_list", "Vlpp.C85_sorted", "Vlpp.C85_array", "Vlpp.C85_dictionary_partial", "Vlpp.C85_violated_dictionary", "Vlpp.C85_group_partial", "Vlpp.C85_violated_group"], "note": "Proved for lists, sorted lists and arrays. For dictionaries and groups proved when Current is called only if the container was not changed since the last Next that returned true; otherwise violated: after Clear, Current of an enumerator of a dictionary or group returns references to released memory (C85_violated_dictionary, C85_violated_group)."},
  {"property": "C86", "status": "partial", "theorems": ["Vlpp.C86_calls_partial", "Vlpp.C86_consumers_partial", "Vlpp.C86_lazy_partial", "Vlpp.C86_evaluated_partial", "Vlpp.C86_select_take", "Vlpp.C86_where_first", "Vlpp.C86_all", "Vlpp.C86_array_calls_twice_violated"], "note": "Proved for all programs made of these functions except Take(n) with n < 1 after Skip (C18), Skip with a negative number, and comparisons that are no total preorders; comparisons have no effects in the model; OrderBy and GroupBy are C98; Cast and FindType are Select and Where with functions that have no effects. An enumerator that has reached the end or thrown must be reset before it is used again. Copying to an array computes everything twice (violation)."},
  {"property": "C87", "status": "proved", "theorems": ["Vlpp.C87_callbacks", "Vlpp.C87_after", "Vlpp.C87_defined", "Vlpp.C87_result_unique"], "note": "Callbacks are arbitrary programs over the model of C49; events are not destroyed meanwhile. Skipped and repeated calls when callbacks remove or add are C49_violated_remove and C49_violated_add."},
  {"property": "C88", "status": "proved", "theorems": ["Vlpp.C88_to_container", "Vlpp.C88_from_container", "Vlpp.C88_error"], "note": "CopyFrom between ObjectString and containers on the models of strings (C36-C39), arrays and CopyFrom (C57). The characters are read before the container is changed (nothing writes to them meanwhile). Containers that are the target: List and Array here, the others by C57."},
  {"property": "C89", "status": "partial", "theorems": ["Vlpp.C89_tuples_partial", "Vlpp.C89_copies_plain", "Vlpp.C89_alias", "Vlpp.C89_violated_move", "Vlpp.C89_violated_move_assign", "Vlpp.C89_violated_swap", "Vlpp.C89_violated_shift"], "note": "Every legal program whose copies, moves and assignments between tuples do not interfere (Plain) gets what the specification says, with exactly the specified objects alive. Missing: moves out of tuples of references and aliasing elements, where the code violates the claim (C89_violated_*)."},
  {"property": "C90", "status": "proved", "theorems": ["Vlpp.C90_errors", "Vlpp.C90_compare", "Vlpp.C90_copies", "Vlpp.C90_prototype", "Vlpp.C90_variables"], "note": "Every program of the quantifier; Take with n >= 1 and Skip with n >= 0 (as in C18)."},
  {"property": "C91", "status": "partial", "theorems": ["Vlpp.C91_dictionary_partial", "Vlpp.C91_group_partial", "Vlpp.C91_violated_dictionary", "Vlpp.C91_violated_group"], "note": "Proved for every program in which no insertion is interrupted: assignments that throw, keys that are not copied because they are there already, refused calls. Violated otherwise, for every program that reaches an interrupted insertion: afterwards destroying, assigning to or clearing the container is undefined behaviour; if the value threw, a dictionary contains the key and reading its value is undefined behaviour; if the key threw, a group has lost a value list."},
  {"property": "C92", "status": "proved", "theorems": ["Vlpp.C92_signed", "Vlpp.C92_unsigned"], "note": "Every string, both character types; 64-bit Linux. strtol and its relatives are modelled by their documentation."},
  {"property": "C93", "status": "partial", "theorems": ["Vlpp.C93_lists_partial", "Vlpp.C93_list_self", "Vlpp.C93_sorted_partial", "Vlpp.C93_sorted_self", "Vlpp.C93_arrays", "Vlpp.C93_dictionaries_partial", "Vlpp.C93_dictionary_self", "Vlpp.C93_groups_partial", "Vlpp.C93_group_self", "Vlpp.C93_violated_list", "Vlpp.C93_violated_sorted", "Vlpp.C93_violated_group"], "note": "Full for arrays. Proved for every program that copies containers to other containers; for a container copied to itself the theorems say exactly what happens, which is not what the property says (see Violations). Sorted lists copied to themselves: characterised when the smallest element is unique."},
  {"property": "C94", "status": "partial", "theorems": ["Vlpp.C94_linux_partial", "Vlpp.C94_windows_console", "Vlpp.C94_windows_file_partial", "Vlpp.C94_windows_color", "Vlpp.C94_read_partial", "Vlpp.C94_violated_light", "Vlpp.C94_violated_zero", "Vlpp.C94_violated_length", "Vlpp.C94_violated_read"], "note": "Holds for texts and colours on Linux terminals, consoles on Windows, zero-terminated output to files on Windows, and lines read with usual endings. Missing, since the code does something else: intensity and zeros on Linux, length of redirected output on Windows, zeros and end of input of Read (see the violated theorems). Not covered: locales, failing output, SetTitle."},
  {"property": "C95", "status": "partial", "theorems": ["Vlpp.C95_report", "Vlpp.C95_verdict_partial", "Vlpp.C95_debug_partial", "Vlpp.C95_violated_caught", "Vlpp.C95_options", "Vlpp.C95_registered", "Vlpp.C95_terminal"], "note": "Complete for suppressed failures (C95_report) and for runs without errors. Without suppression, files in which something catches exceptions that leave categories or cases are excluded, because the code then uses a destroyed context (C95_violated_caught). C95_verdict_partial: as C52. Not covered: structured exceptions of Windows, classes derived from Error and Exception."},
  {"property": "C96", "status": "partial", "theorems": ["Vlpp.C96_threads_partial", "Vlpp.C96_finish_partial", "Vlpp.C96_violated_buffer"], "note": "Proved for every interleaving if no thread calls Buffer() on a shared constant that does not end where its buffer ends. For such a constant Buffer(), a const function, replaces the buffer, and C96_violated_buffer gives interleavings of two threads that only call const functions and use deleted memory."},
  {"property": "C97", "status": "partial", "theorems": ["Vlpp.C97_sort_effects_partial", "Vlpp.C97_sort_effects_sorts", "Vlpp.C97_sorted_input_quadratic", "Vlpp.C97_violated_copy"], "note": "Proved for all comparers and copies except that after an exception of copying an element (third copy of an exchange) one element may be overwritten by another: C97_violated_copy shows that the permutation claim fails there. The bound n(n-1) is reached (C97_sorted_input_quadratic). Assumes a copy assignment that throws leaves its target as it was."},
  {"property": "C98", "status": "proved", "theorems": ["Vlpp.C98_orderBy", "Vlpp.C98_orderBy_sorts", "Vlpp.C98_byKey", "Vlpp.C98_orderByKey_sorts", "Vlpp.C98_orderBySelf", "Vlpp.C98_orderBySelf_sorts", "Vlpp.C98_groupBy", "Vlpp.C98_groupBy_calls", "Vlpp.C98_groupBy_quadratic"], "note": "Functions and comparers with arbitrary effects on a world, also throwing. Copying elements has no effects here (C97 has them); comparison of keys in Distinct and == of keys in GroupBy are pure."},
  {"property": "C99", "status": "partial", "theorems": ["Vlpp.C99_sortedList", "Vlpp.C99_sortedList_ordered", "Vlpp.C99_list", "Vlpp.C99_dictionary", "Vlpp.C99_dictionary_ordered", "Vlpp.C99_group_partial", "Vlpp.C99_group_ordered", "Vlpp.C99_violated_group"], "note": "Proved for SortedList, List and Dictionary. For Group one part is false and its negation is proved: Group::Add makes the list of values before it adds the key, so a comparison that throws (or is unordered) while the key is added loses that list for ever. C99_group_partial says everything else, and counts exactly the lists that are lost."}
]}
