{
 "claims": [
  {
   "property": "C01",
   "status": "proved",
   "theorems": [
    "Verif.Utf.C01_utf8_decode"
   ],
   "note": "All scalar sequences, all destinations, any growth policy that succeeds; all four destination encodings."
  },
  {
   "property": "C02",
   "status": "partial",
   "theorems": [
    "Verif.Utf.C02_round_trip_partial",
    "Verif.Utf.C02_iff",
    "Verif.Utf.C02_fails"
   ],
   "note": "Proved for all sequences below 0x4000000, and that these are exactly the sequences that come back (C02_iff). Defect: no single code unit in 0x4000000..0x7FFFFFFF comes back (whole class proved to fail)."
  },
  {
   "property": "C03",
   "status": "partial",
   "theorems": [
    "Verif.Utf.C03_utf16_decode_partial",
    "Verif.Utf.C03_exact",
    "Verif.Utf.C03_iff",
    "Verif.Utf.C03_fails"
   ],
   "note": "Exact result for every text: U+E000, which the code takes for a surrogate, becomes a question mark; a text is decoded correctly exactly if it does not contain U+E000 (C03_iff)."
  },
  {
   "property": "C04",
   "status": "partial",
   "theorems": [
    "Verif.Utf.C04_utf32_to_utf16_partial",
    "Verif.Utf.C04_iff",
    "Verif.Utf.C04_fails"
   ],
   "note": "Proved for all texts for three of the four byte order pairs, and for BMP texts LE to LE; LE to LE cuts surrogates to 8 bits: it is right exactly for texts without supplementary characters (C04_iff)."
  },
  {
   "property": "C05",
   "status": "partial",
   "theorems": [
    "Verif.Utf.C05_endian_partial",
    "Verif.Utf.C05_iff_8to32",
    "Verif.Utf.C05_iff_32to16",
    "Verif.Utf.C05_fails"
   ],
   "note": "Proved for every input where it holds; the exact sets of inputs for UTF-8 to UTF-32 and little-endian UTF-32 to UTF-16 are C05_iff_8to32 and C05_iff_32to16."
  },
  {
   "property": "C06",
   "status": "proved",
   "theorems": [
    "Verif.Utf.C06_no_overflow"
   ],
   "note": "Every conversion, every input, every capacity, every growth policy including failing ones: no out-of-buffer write."
  },
  {
   "property": "C07",
   "status": "partial",
   "theorems": [
    "Verif.Utf.C07_utf16_partial",
    "Verif.Utf.C07_utf16_exact",
    "Verif.Utf.C07_utf16_iff",
    "Verif.Utf.C07_utf16_example",
    "Verif.Utf.C07_utf16_fails",
    "Verif.Utf.C07_utf8_partial",
    "Verif.Utf.C07_utf8_exact",
    "Verif.Utf.C07_utf8_iff",
    "Verif.Utf.C07_utf8_example",
    "Verif.Utf.C07_utf8_fails",
    "Verif.Utf.C07_cut_fails",
    "Verif.Utf.C07_put"
   ],
   "note": "Exact result for every sequence of units, and the exact set of inputs (Fine16, Safe16, Sound8) for which it is the decoding with replacement; outside of it it is wrong: pairs of low surrogates, U+E000, overlong forms, encoded surrogates, and text after a character cut off at the end (lost for every text, C07_cut_fails)."
  },
  {
   "property": "C08",
   "status": "partial",
   "theorems": [
    "Verif.StrHeap.C08_append_partial",
    "Verif.StrHeap.C08_move_fails",
    "Verif.StrHeap.C08_move_case",
    "Verif.StrHeap.C08_empty_partial"
   ],
   "note": "The claim is false for an empty destination: it always ends up pointing to freed storage (refuted for every history). For a non-empty destination text, storage and the other handles are right."
  },
  {
   "property": "C09",
   "status": "partial",
   "theorems": [
    "Verif.StrHeap.C09_others",
    "Verif.StrHeap.C09_others_run",
    "Verif.StrHeap.C09_as_unshared_partial",
    "Verif.StrHeap.C09_copy",
    "Verif.StrHeap.C09_move",
    "Verif.StrHeap.C09_moveAssign",
    "Verif.StrHeap.C09_setItem_fails",
    "Verif.StrHeap.C09_setEnc_fails",
    "Verif.StrHeap.C09_lock_fails",
    "Verif.StrHeap.C09_encoding_fails"
   ],
   "note": "Independence holds for every history of every operation. Equality with the unshared result holds except for SetItem, SetANSIEncoding and LockBuffer on shared strings, which lose the text, and for the code page of shared ANSI strings."
  },
  {
   "property": "C10",
   "status": "partial",
   "theorems": [
    "Verif.StrHeap.C10_lifetime_partial",
    "Verif.StrHeap.C10_no_leak_partial",
    "Verif.StrHeap.C10_store_bounds",
    "Verif.StrHeap.C10_store_frame",
    "Verif.StrHeap.C10_lock_room",
    "Verif.StrHeap.C10_remove_oom_fails",
    "Verif.StrHeap.C10_copyIn_ext",
    "Verif.StrHeap.C10_copyIn_inn",
    "Verif.StrHeap.C10_moveIn",
    "Verif.StrHeap.C10_swapIn",
    "Verif.StrHeap.C10_release"
   ],
   "note": "Every history over any number of handles (below 2^31-5) with every allocator answer; excluded are the calls for which the claim is refuted (C08, C16, Remove of a shared string without memory)."
  },
  {
   "property": "C11",
   "status": "partial",
   "theorems": [
    "Verif.StrHeap.C11_size",
    "Verif.StrHeap.C11_terminated_partial",
    "Verif.StrHeap.C11_setItem_fails"
   ],
   "note": "Size at most capacity in every history. Terminator in every history without SetItem/SetANSIEncoding/LockBuffer on shared strings, for which it is refuted."
  },
  {
   "property": "C12",
   "status": "partial",
   "theorems": [
    "Verif.View.C12_view_trim",
    "Verif.View.C12_string_trim_partial",
    "Verif.View.C12_string_both_partial",
    "Verif.View.C12_string_both_example",
    "Verif.View.C12_fails"
   ],
   "note": "Views: fully proved. String::TrimStart fully proved; String::TrimEnd/Trim proved right exactly when nothing or everything is trimmed, negation witness otherwise."
  },
  {
   "property": "C13",
   "status": "partial",
   "theorems": [
    "Verif.View.C13_cut_partial",
    "Verif.View.C13_fails"
   ],
   "note": "Proved for all arguments except Slice with counts adding up to 2^64 or more; negation witnesses for that case."
  },
  {
   "property": "C14",
   "status": "proved",
   "theorems": [
    "Verif.View.C14_indexOf_char",
    "Verif.View.C14_indexOf_string",
    "Verif.View.C14_indexOf_any"
   ],
   "note": "All overloads with and without start index and count; never reads outside the view."
  },
  {
   "property": "C15",
   "status": "partial",
   "theorems": [
    "Verif.View.C15_split_partial",
    "Verif.View.C15_split_rest",
    "Verif.View.C15_split_rest_string",
    "Verif.View.C15_fails"
   ],
   "note": "Proved up to one trailing separator, which the loop cannot report (negation witness)."
  },
  {
   "property": "C16",
   "status": "partial",
   "theorems": [
    "Verif.StrHeap.C16_append_partial",
    "Verif.StrHeap.C16_double_partial",
    "Verif.StrHeap.C16_assign_partial",
    "Verif.StrHeap.C16_append_fails",
    "Verif.StrHeap.C16_assign_fails",
    "Verif.StrHeap.C16_double_case"
   ],
   "note": "Holds for shared storage and for unshared storage with room (append) or a part that starts beyond its own length (assign); refuted otherwise."
  },
  {
   "property": "C17",
   "status": "partial",
   "theorems": [
    "Verif.View.C17_compare_partial",
    "Verif.View.C17_compareSz_partial",
    "Verif.View.C17_upper_is_ascii",
    "Verif.View.C17_fails",
    "Verif.View.C27_equal_partial"
   ],
   "note": "Proved for every unit type with 32-bit units below 2^31 and, for C strings, texts without NUL/negative units; negation witnesses for the rest."
  },
  {
   "property": "C18",
   "status": "partial",
   "theorems": [
    "Verif.Arr.C18_list_ops_partial",
    "Verif.Arr.C18_values",
    "Verif.Arr.C18_insert_alias_fails",
    "Verif.Arr.C18_insert_alias_ub_fails",
    "Verif.Arr.C18_addN_alias_ub_fails",
    "Verif.Arr.C18_set_alias_ub_fails",
    "Verif.Arr.C18_reserve",
    "Verif.Arr.C18_cons1",
    "Verif.Arr.C18_asg1",
    "Verif.Arr.C18_des1",
    "Verif.Arr.C18_write",
    "Verif.Arr.C18_write_gone"
   ],
   "note": "For every history of valid operations on any number of Array handles (copy-on-write policy, trivially copyable elements) each member function equals the list operation of the same name, with exact conditions for bounds, missing memory and exceptions. Excluded because false: arguments that are elements of the modified unshared array itself (Insert inserts the wrong element or reads freed memory; Add(range) reads freed memory). The SOO policy is in C73, Sort in C89."
  },
  {
   "property": "C19",
   "status": "partial",
   "theorems": [
    "Verif.Arr.C19_list_ops_partial",
    "Verif.Arr.C19_lifetimes",
    "Verif.Arr.C19_sizes",
    "Verif.Arr.C19_undefined",
    "Verif.Arr.C19_insert_fails",
    "Verif.Arr.C19_remove_fails",
    "Verif.Arr.C19_insert_concrete_fails",
    "Verif.Arr.C19_remove_concrete_fails"
   ],
   "note": "False as stated: ConstructorPolicy::Move iterates in the wrong direction. Proved: the exact condition under which Insert/Remove are right, that outside it a moved-from element always appears, that sizes and element lifetimes are always right."
  },
  {
   "property": "C20",
   "status": "partial",
   "theorems": [
    "Verif.Arr.C20_others_run",
    "Verif.Arr.C20_copy",
    "Verif.Arr.C20_moveNew",
    "Verif.Arr.C20_moveAssign",
    "Verif.Arr.C20_lifetime_partial",
    "Verif.Arr.C20_no_leak_partial",
    "Verif.Arr.C20_locked_unshared",
    "Verif.Arr.C20_locked_stays",
    "Verif.Arr.C20_lock_count",
    "Verif.Arr.C20_assign_locked_fails",
    "Verif.Arr.C20_move_locked_aborts",
    "Verif.Arr.C20_lock_empty_fails",
    "Verif.Arr.C20_lock_throws"
   ],
   "note": "Independence, exact lifetime, no leak, locked arrays unshared and never reallocated, for all histories of valid operations. Excluded because false: assigning an unlocked array to a locked one leaks a reference; moving a locked array ends the program. The SOO policy is in C73."
  },
  {
   "property": "C22",
   "status": "proved",
   "theorems": [
    "Verif.DoublyLinkedList.C22_history"
   ],
   "note": "Refinement to sequences for every history over any number of lists; caller obligations in AllowedRun."
  },
  {
   "property": "C23",
   "status": "proved",
   "theorems": [
    "Verif.SingleLinkedList.C23_history"
   ],
   "note": "Refinement to sequences for every history; caller obligations in the allowed-history predicate."
  },
  {
   "property": "C24",
   "status": "partial",
   "theorems": [
    "Verif.BitMap.C24_history",
    "Verif.BitMap.C24_portable_fails",
    "Verif.BitMap.C24_portable_set_partial",
    "Verif.BitMap.C24_shifts"
   ],
   "note": "Proved for the Windows bit primitives, any word width. The portable 64-bit primitives use a 32-bit mask: negation proved."
  },
  {
   "property": "C25",
   "status": "proved",
   "theorems": [
    "Verif.HashSet.C25_refines",
    "Verif.HashSet.C25_destroy_safe",
    "Verif.HashSet.C25_no_leak_partial",
    "Verif.HashSet.C25_pop_leak_fails"
   ],
   "note": "All histories, bucket counts and allocator behaviours, at the level of linked entries in memory. Beyond the claim: Pop never frees its entry. On non-Windows S_FALSE equals S_OK, so the two results cannot be told apart there."
  },
  {
   "property": "C26",
   "status": "proved",
   "theorems": [
    "Verif.Optional.C26_history",
    "Verif.Optional.C26_emplace_own_value"
   ],
   "note": "All histories on any number of optionals, elements with identity counters: values as specified, live objects = engaged optionals, no double destruction."
  },
  {
   "property": "C27",
   "status": "partial",
   "theorems": [
    "Verif.View.C27_equal_partial",
    "Verif.View.C27_stringView_ne",
    "Verif.View.C27_span_ne_meaning",
    "Verif.View.C27_fails"
   ],
   "note": "== proved exact; Span != is characterised and refuted."
  },
  {
   "property": "C28",
   "status": "proved",
   "theorems": [
    "Verif.RefPtr.C28_lifetime"
   ],
   "note": "Any number of threads, every interleaving of atomic steps; fewer than 2^32-1 simultaneous references assumed."
  },
  {
   "property": "C29",
   "status": "partial",
   "theorems": [
    "Verif.ObserverPtr.C29_history_partial",
    "Verif.ObserverPtr.C29_assign_fails",
    "Verif.ObserverPtr.C29_assign_wrong_object_fails",
    "Verif.ObserverPtr.C29_assign_dangling_fails",
    "Verif.ObserverPtr.C29_factory_copy_fails",
    "Verif.ObserverPtr.C29_eq_observers_partial",
    "Verif.ObserverPtr.C29_eq_pointer_partial",
    "Verif.ObserverPtr.C29_eq_null_fails",
    "Verif.ObserverPtr.C29_eq_reset_fails",
    "Verif.ObserverPtr.C29_eq_assign_fails",
    "Verif.ObserverPtr.C29_addRef",
    "Verif.ObserverPtr.C29_release"
   ],
   "note": "All histories with any number of objects and observers, excluding the two operations that are wrong in the code: assignment between observers with different targets, and copying an observed object; both refuted with witnesses. The comparison operators agree with the designated objects except against null and after Reset (refuted)."
  },
  {
   "property": "C30",
   "status": "proved",
   "theorems": [
    "Verif.UniquePtr.C30_history",
    "Verif.UniquePtr.C30_delete"
   ],
   "note": "Every history of the non-array and array UniquePtr operations on any number of pointers and objects refines the owner map; no double delete, no leak; caller obligations: raw pointers handed in are owned by nobody."
  },
  {
   "property": "C31",
   "status": "partial",
   "theorems": [
    "Verif.CriticalSection.C31_mutex_partial",
    "Verif.CriticalSection.C31_never_released",
    "Verif.CriticalSection.C31_release_fails",
    "Verif.CriticalSection.C31_mutex_fails",
    "Verif.CriticalSection.C31_depth_fails"
   ],
   "note": "Defect: the lock is not released correctly; see DESIGN.md. Mutual exclusion holds in the histories of the partial theorem."
  },
  {
   "property": "C32",
   "status": "partial",
   "theorems": [
    "Verif.Spsc.C32_fifo_partial",
    "Verif.Spsc.C32_safe",
    "Verif.Spsc.C32_fifo_guarded_partial",
    "Verif.Spsc.C32_delivers",
    "Verif.Spsc.C32_loss_fails",
    "Verif.Spsc.C32_memory",
    "Verif.Spsc.C32_memory_quiet",
    "Verif.Spsc.C32_leak_fails"
   ],
   "note": "Order, no duplication and memory safety for every caller, every block size and interleaving. No loss only for callers that pop no more than was completely pushed (as the thread task runner does); for other callers a whole block of entries can be lost (refuted for every block size)."
  },
  {
   "property": "C33",
   "status": "proved",
   "theorems": [
    "Verif.Treiber.C33_linearizable",
    "Verif.Treiber.C33_conservation",
    "Verif.Treiber.C33_safe",
    "Verif.Treiber.C33_flush_enabled"
   ],
   "note": "Any number of pushers (also of whole segments), one consumer, every interleaving of the single loads, stores and compare-exchanges; entries may be pushed again after they were obtained."
  },
  {
   "property": "C34",
   "status": "partial",
   "theorems": [
    "Verif.Interlocked.C34_bit_partial",
    "Verif.Interlocked.C34_linearizable",
    "Verif.Interlocked.C34_only_sets",
    "Verif.Interlocked.C34_one_winner",
    "Verif.Interlocked.C34_subSigned",
    "Verif.Interlocked.C34_portable64_fails",
    "Verif.Interlocked.C34_resetInt32_diverges",
    "Verif.Interlocked.C34_exchange",
    "Verif.Interlocked.C34_claim",
    "Verif.Interlocked.C34_two_points",
    "Verif.Interlocked.C34_overloads",
    "Verif.Interlocked.C34_progress",
    "Verif.Interlocked.C34_progress_example"
   ],
   "note": "All words, bit positions and interleavings for the Windows implementation and the portable 32-bit one; the portable 64-bit operations on bits of the upper half, and both BitReset overloads for int32_t, are wrong in the code and refuted."
  },
  {
   "property": "C35",
   "status": "proved",
   "theorems": [
    "Verif.WaitAddr.C35_true_sound",
    "Verif.WaitAddr.C35_poll",
    "Verif.WaitAddr.C35_inf_first",
    "Verif.WaitAddr.C35_false_reason",
    "Verif.WaitAddr.C35_complete_fails",
    "Verif.WaitAddr.C35_long_is_infinite"
   ],
   "note": "Every behaviour of other threads, clock and system wait, all sizes. The converse (false only if not equal) is not claimed and fails; limits of 49.7 days and more become infinite."
  },
  {
   "property": "C36",
   "status": "partial",
   "theorems": [
    "Verif.MathUtils.C36_umul128_exact",
    "Verif.MathUtils.C36_udiv128_exact_partial",
    "Verif.MathUtils.C36_udiv128_small",
    "Verif.MathUtils.C36_x64_partial",
    "Verif.MathUtils.C36_portable_partial",
    "Verif.MathUtils.C36_fast_partial",
    "Verif.MathUtils.C36_signed_partial",
    "Verif.MathUtils.C36_portable_fails",
    "Verif.MathUtils.C36_round_fails",
    "Verif.MathUtils.C36_fast_needs_multiple",
    "Verif.MathUtils.C36_signed_min_fails",
    "Verif.MathUtils.C36_div_faults",
    "Verif.MathUtils.C36_overflow",
    "Verif.MathUtils.C36_udiv_zero"
   ],
   "note": "All operands with divisor up to 2^63 on x64 (faults characterised) and up to 2^32 with the portable division; beyond that the code is wrong (refuted)."
  },
  {
   "property": "C37",
   "status": "partial",
   "theorems": [
    "Verif.Time.C37_from",
    "Verif.Time.C37_total_truncates",
    "Verif.Time.C37_roundtrip",
    "Verif.Time.C37_span_add_sub",
    "Verif.Time.C37_order_partial",
    "Verif.Time.C37_span17_rest",
    "Verif.Time.C37_span_gt_fails",
    "Verif.Time.C37_tick_restores",
    "Verif.Time.C37_date_restores",
    "Verif.Time.C37_date_diff_add",
    "Verif.Time.C37_tick_roundtrip"
   ],
   "note": "Proved for all values except TimeSpan::operator> before C++20, which is >= in the code."
  },
  {
   "property": "C38",
   "status": "proved",
   "theorems": [
    "Verif.Time.C38_roundtrip",
    "Verif.Time.C38_truncates",
    "Verif.Time.C38_monotone",
    "Verif.Time.C38_range",
    "Verif.Time.C38_minus_one",
    "Verif.Time.C38_large_wraps"
   ],
   "note": "All 64-bit values; 'representable' means a file time below 2^63, larger stamps wrap silently (C38_large_wraps)."
  },
  {
   "property": "C39",
   "status": "partial",
   "theorems": [
    "Verif.Version.C39_cmp20",
    "Verif.Version.C39_cmp17_partial",
    "Verif.Version.C39_ne_fails",
    "Verif.Version.C39_ne_exact",
    "Verif.Version.C39_fields",
    "Verif.Version.C39_pack_unpack",
    "Verif.Version.C39_hightPart",
    "Verif.Version.C39_lowPart"
   ],
   "note": "All versions and operators, except operator!= before C++20, which is > in the code."
  },
  {
   "property": "C40",
   "status": "partial",
   "theorems": [
    "Verif.TimingWheel.C40_never_early_partial",
    "Verif.TimingWheel.far_meaning",
    "Verif.TimingWheel.C40_fails",
    "Verif.TimingWheel.C40_tick_fails"
   ],
   "note": "Every history of set, cancel, process and dispatch at any times. Holds in milliseconds for timers set at most 2^22 ms ahead; refuted for longer ones (dispatched up to 70 minutes early) and below a millisecond."
  },
  {
   "property": "C41",
   "status": "partial",
   "theorems": [
    "Verif.TimingWheel.C41_on_time_partial",
    "Verif.TimingWheel.clean_of_often",
    "Verif.TimingWheel.C41_cascade_fails",
    "Verif.TimingWheel.C41_base_fails",
    "Verif.TimingWheel.calm_case"
   ],
   "note": "Every history whose processing calls miss no cascade (all calls less than 1024 ms apart are fine) and sets no timer that expires in the millisecond of the base; both exceptions are refuted."
  },
  {
   "property": "C42",
   "status": "partial",
   "theorems": [
    "Verif.TimingWheel.C42_no_oversleep_partial",
    "Verif.TimingWheel.C42_fails",
    "Verif.TimingWheel.C42_past",
    "Verif.TimingWheel.wake_case"
   ],
   "note": "All states of fine histories unless only the overflow list is occupied, where the claim is refuted."
  },
  {
   "property": "C43",
   "status": "proved",
   "theorems": [
    "Verif.TimingWheel.C43_exactly_once"
   ],
   "note": "Every history of set, cancel, process and dispatch at any times, also nested."
  },
  {
   "property": "C44",
   "status": "partial",
   "theorems": [
    "Verif.Sequenced.C44_order_and_exclusion",
    "Verif.Sequenced.C44_single_producer",
    "Verif.Sequenced.C44_single_consumer_partial",
    "Verif.Sequenced.C44_single_consumer_fails",
    "Verif.Spsc.C32_two_consumers_fails"
   ],
   "note": "Any number of threads, every interleaving of atomic steps of post/schedule/execute/stop/interrupt/release/clean-up, with Push and Pop atomic. The queue admits one consumer only; this is respected in histories without Interrupt, refusal by the pool or loss of the last reference (C44_single_consumer_partial) and refuted with Interrupt (C44_single_consumer_fails)."
  },
  {
   "property": "C45",
   "status": "partial",
   "theorems": [
    "Verif.Sequenced.C45_no_lost_wakeup_partial",
    "Verif.Sequenced.C45_fails"
   ],
   "note": "Defect: a post that raised the task counter but has not pushed yet races with the executor's Pop: the executor leaves, the task is never run. Proved for schedules without that overlap."
  },
  {
   "property": "C46",
   "status": "proved",
   "theorems": [
    "Verif.Parallel.C46_maximum",
    "Verif.Parallel.C46_configured",
    "Verif.Parallel.C46_counter",
    "Verif.Parallel.C46_case"
   ],
   "note": "Any number of threads, every interleaving, unconditional."
  },
  {
   "property": "C47",
   "status": "partial",
   "theorems": [
    "Verif.ThreadRunner.C47_no_lost_wakeup_partial",
    "Verif.ThreadRunner.C47_wakeup_in_flight_partial",
    "Verif.ThreadRunner.C47_first_post_wakes_partial",
    "Verif.ThreadRunner.C47_pop_partial",
    "Verif.ThreadRunner.C47_nested_callback_fails",
    "Verif.ThreadRunner.C47_nested_callback_pop_fails",
    "Verif.ThreadRunner.C47_timer_pump_fails",
    "Verif.ThreadRunner.C47_early_read_fails",
    "Verif.ThreadRunner.C47_case"
   ],
   "note": "Both loops, any number of posters, any nesting of loops started by queue tasks, every interleaving. Refuted when a nested loop is started from a message, timer or wait callback, when a timer callback removes messages, and for the other order of evaluation of the operands at line 294."
  },
  {
   "property": "C48",
   "status": "partial",
   "theorems": [
    "Verif.Sequenced.C48_rejected",
    "Verif.Sequenced.C48_stops",
    "Verif.Sequenced.C48_join_partial",
    "Verif.Sequenced.C48_join_final_partial",
    "Verif.Sequenced.C48_join_queued_fails",
    "Verif.Sequenced.C48_join_running_fails",
    "Verif.Sequenced.C48_case",
    "Verif.Parallel.C48_parallel_late_fails",
    "Verif.ThreadRunner.C48_thread_join_stuck",
    "Verif.ThreadRunner.C48_thread_join_waits",
    "Verif.ThreadRunner.C48_thread_join_truthful",
    "Verif.ThreadRunner.C48_thread_join_case",
    "Verif.ThreadRunner.C48_thread_join_fails",
    "Verif.ThreadRunner.C48_thread_terminate_fails"
   ],
   "note": "Thread runner: Join that has to wait never returns unless somebody interrupts the runner or its loop ends (C48_thread_join_stuck/_fails); termination during a post clears the stop bit (C48_thread_terminate_fails). Rejection after stop is proved for all histories. Join reports completion truthfully in every history without Interrupt or refusal by the thread pool; with Interrupt, Join may return success while a task is still running (C48_join_running_fails) or is put into the queue afterwards and stays there (C48_join_queued_fails). Sequenced runner; in the parallel runner a post that began before Join is accepted and run after Join has returned success (C48_parallel_late_fails)."
  },
  {
   "property": "C49",
   "status": "proved",
   "theorems": [
    "Verif.Async.C49_complete_once",
    "Verif.Async.C49_status_final"
   ],
   "note": "Any number of threads, every interleaving of single reads/writes. Handler list abstracted to a sequence (C57); each handler object attached at most once."
  },
  {
   "property": "C50",
   "status": "partial",
   "theorems": [
    "Verif.Async.C50_outcome_partial",
    "Verif.Async.C50_value",
    "Verif.Async.C50_fails",
    "Verif.Async.C50_cancel_fails"
   ],
   "note": "Defect: a continuation attached while a failing/cancelling call is between its compare-exchange and publishing the error sees E_UNEXPECTED and no exception. Proved for all other attachments and for all successful results. Continuations posted to a task runner and tokens of the continuation not modelled."
  },
  {
   "property": "C51",
   "status": "partial",
   "theorems": [
    "Verif.When.All.C51_result_partial",
    "Verif.When.All.C51_result_unraced",
    "Verif.When.All.C51_once",
    "Verif.When.All.C51_completes",
    "Verif.When.All.C51_lifetime",
    "Verif.When.All.C51_exclusive",
    "Verif.When.All.C51_fails",
    "Verif.When.All.C51_case"
   ],
   "note": "Any number of tasks and threads, every interleaving. Completion exactly when all are completed, success iff all succeeded, error of the first failing task, except E_PENDING in the race shown by C51_fails. Tasks' own resolution is one atomic claim plus publication as in Verif.Async."
  },
  {
   "property": "C52",
   "status": "partial",
   "theorems": [
    "Verif.When.Any.C52_index",
    "Verif.When.Any.C52_once",
    "Verif.When.Any.C52_stays",
    "Verif.When.Any.C52_completes",
    "Verif.When.Any.C52_safe",
    "Verif.When.Any.C52_release_partial",
    "Verif.When.Any.C52_leak",
    "Verif.When.Any.C52_leak_forever",
    "Verif.When.Any.C52_release_fails",
    "Verif.When.Any.C52_case"
   ],
   "note": "Any number of tasks and threads, every interleaving. Release of the bookkeeping refuted when a task refuses the handler, proved otherwise."
  },
  {
   "property": "C53",
   "status": "partial",
   "theorems": [
    "Verif.Cancel.C53_once",
    "Verif.Cancel.C53_false",
    "Verif.Cancel.C53_stays",
    "Verif.Cancel.C53_callbacks",
    "Verif.Cancel.C53_log",
    "Verif.Cancel.C53_refused",
    "Verif.Cancel.C53_closed",
    "Verif.Cancel.C53_progress_partial",
    "Verif.Cancel.C53_deadlock",
    "Verif.Cancel.C53_deadlock_case",
    "Verif.Cancel.C53_exclusion_fails",
    "Verif.Cancel.C53_twice_fails",
    "Verif.Cancel.C53_case"
   ],
   "note": "Any number of threads, every interleaving, callbacks that call back, with CriticalSection as written. What is said about results and callbacks holds; that Cancel finishes is refuted for a second thread (deadlock for ever) and proved for one thread. Registering the only handler twice is excluded (refuted)."
  },
  {
   "property": "C54",
   "status": "partial",
   "theorems": [
    "Verif.WaitMgr.C54_paired_partial",
    "Verif.WaitMgr.C54_set_partial",
    "Verif.WaitMgr.C54_cancel_partial",
    "Verif.WaitMgr.C54_process_partial",
    "Verif.WaitMgr.C54_delivered_partial",
    "Verif.WaitMgr.C54_minimum_partial",
    "Verif.WaitMgr.C54_timeouts_partial",
    "Verif.WaitMgr.C54_replace_fails",
    "Verif.WaitMgr.C54_replace_lost_fails",
    "Verif.WaitMgr.C54_case"
   ],
   "note": "Proved for every history in which no handle gets a second pending wait, including cancellation from other threads and waits that die; registering a second pending wait for a handle breaks the pairing (C54_replace_fails) or loses the new wait (C54_replace_lost_fails)."
  },
  {
   "property": "C55",
   "status": "partial",
   "theorems": [
    "Verif.Path.C55_root",
    "Verif.Path.C55_rooted",
    "Verif.Path.root_unique",
    "Verif.Path.C55_split_partial",
    "Verif.Path.C55_split_unrooted",
    "Verif.Path.C55_extension",
    "Verif.Path.C55_noExt_partial",
    "Verif.Path.C55_ok",
    "Verif.Path.C55_fileName_fails",
    "Verif.Path.C55_noExt_fails",
    "Verif.Path.C55_extension_fails"
   ],
   "note": "Every text, both platforms, no read outside the view. The root is the specified one (and that is unique). Splitting holds unless the file stands directly in the root, where GetFileName returns the whole path; GetFileNameWithoutExtension returns the extension; both refuted."
  },
  {
   "property": "C56",
   "status": "partial",
   "theorems": [
    "Verif.Path.C56_append_partial",
    "Verif.Path.C56_append_shared",
    "Verif.Path.C56_append_fails",
    "Verif.Path.C56_append_storage_fails",
    "Verif.Path.C56_sameVolume_inverted",
    "Verif.Path.C56_sameVolume_fails",
    "Verif.Path.C56_qualified_partial",
    "Verif.Path.C56_qualified_empty_fails",
    "Verif.Path.C56_fullPath_partial",
    "Verif.Path.C56_fullPath_drive",
    "Verif.Path.C56_fullPath_fails",
    "Verif.Path.C56_append_ok",
    "Verif.Path.C56_fullPath_ok"
   ],
   "note": "Every text, both platforms. Append holds for strings that own their storage and is refuted for shared ones; GetFullPath holds for all but drive-relative paths, for which the volume test is inverted in every case."
  },
  {
   "property": "C57",
   "status": "partial",
   "theorems": [
    "Verif.Delegate.C57_history_partial",
    "Verif.Delegate.C57_fails"
   ],
   "note": "Defect: a handler that is the sole element of a delegate can be added twice. Positive theorem for all other histories."
  },
  {
   "property": "C58",
   "status": "partial",
   "theorems": [
    "Verif.NStr.C58_no_ub_partial",
    "Verif.NStr.C58_capacity_partial",
    "Verif.NStr.C58_others_partial",
    "Verif.NStr.C58_others_del_partial",
    "Verif.NStr.C58_converts_partial",
    "Verif.NStr.C58_text_partial",
    "Verif.NStr.C58_capacity_fails",
    "Verif.NStr.C58_byte_order_fails",
    "Verif.NStr.C58_failure_loses_text",
    "Verif.NStr.C58_overflow_fails",
    "Verif.NStr.C58_capacity_wraps_fails",
    "Verif.NStr.C58_others_fails",
    "Verif.NStr.C58_byte_order_concrete_fails",
    "Verif.NStr.C58_oom_fails",
    "Verif.NStr.C58_code_page_fails",
    "Verif.NStr.C58_set_partial",
    "Verif.NStr.C58_clear_partial",
    "Verif.NStr.C58_clear_fails"
   ],
   "note": "False as stated, in five ways (proved, partly for every state): the capacity of an empty owned buffer is rescaled twice, an empty buffer with one other owner is relabelled under that owner, a change of byte order leaves a freed block, a failed conversion loses the text, code page changes only relabel. Proved for every history without those calls (and any allocation failures): no undefined behaviour, recorded capacity within the storage, other handles unchanged, and a successful SetEncoding between Unicode encodings keeps the text, using the modelled conversions."
  },
  {
   "property": "C59",
   "status": "partial",
   "theorems": [
    "Verif.Utf.C59_oom_keeps_text_partial",
    "Verif.Utf.C59_fails"
   ],
   "note": "Proved for the conversions that restore the length; the UTF-16 to UTF-8 path empties the destination (negation proved)."
  },
  {
   "property": "C60",
   "status": "proved",
   "theorems": [
    "Verif.RefHandle.C60_history",
    "Verif.RefHandle.C60_no_leak",
    "Verif.RefHandle.C60_addRef",
    "Verif.RefHandle.C60_addWeak",
    "Verif.RefHandle.C60_releaseWeak",
    "Verif.RefHandle.C60_release"
   ],
   "note": "All histories of RefPtr/WeakPtr operations on any number of objects and handles, including raw references obtained by Detach/Clone; single-threaded handles (counter interleavings are C28)."
  },
  {
   "property": "C61",
   "status": "proved",
   "theorems": [
    "Verif.View.C61_prefix_suffix_contains"
   ],
   "note": "All texts and arguments."
  },
  {
   "property": "C62",
   "status": "partial",
   "theorems": [
    "Verif.Time.C62_add_exact_partial",
    "Verif.Time.C62_add_round_partial",
    "Verif.Time.C62_diff_partial",
    "Verif.Time.C62_diff_antisymm",
    "Verif.Time.C62_negative_span_fails",
    "Verif.Time.C62_frequency_fails"
   ],
   "note": "All instants and spans if the frequency is a multiple of 10 MHz, non-negative spans if it divides 10 MHz; other frequencies and negative spans are wrong in the code (refuted)."
  },
  {
   "property": "C63",
   "status": "partial",
   "theorems": [
    "Verif.Parallel.C63_single_consumer",
    "Verif.Parallel.C63_single_producer_partial",
    "Verif.Parallel.C63_two_producers_fails"
   ],
   "note": "Consumers: proved for all schedules. Producers: proved until a clean-up resets the flags; the clean-up's Exchange clears a push lock held by a poster, so a second poster gets in."
  },
  {
   "property": "C64",
   "status": "partial",
   "theorems": [
    "Verif.Parallel.C64_executors_partial",
    "Verif.Parallel.C64_no_lost_wakeup_partial",
    "Verif.Parallel.C64_fails",
    "Verif.Parallel.C64_case"
   ],
   "note": "Defect: an executor that looks into the queue while a post has raised the counter but not pushed yet leaves, and the task waits until another post. Proved for schedules without that overlap (and with fewer than 2^27 pending tasks)."
  },
  {
   "property": "C65",
   "status": "proved",
   "theorems": [
    "Verif.ThreadRunner.C65_order",
    "Verif.ThreadRunner.C65_one_producer",
    "Verif.ThreadRunner.C65_levels",
    "Verif.ThreadRunner.C65_loop_ends",
    "Verif.ThreadRunner.C65_loop_ends_example",
    "Verif.ThreadRunner.C65_interrupt",
    "Verif.ThreadRunner.C65_interrupt_example",
    "Verif.ThreadRunner.C47_case"
   ],
   "note": "Every environment, until the runner is terminated."
  },
  {
   "property": "C66",
   "status": "partial",
   "theorems": [
    "Verif.Send.C66_result_partial",
    "Verif.Send.C66_once",
    "Verif.Send.C66_progress",
    "Verif.Send.C66_stack_partial",
    "Verif.Send.C66_direct",
    "Verif.Send.C66_stack_fails",
    "Verif.Send.C66_stack_always_fails",
    "Verif.Send.C66_spurious_fails",
    "Verif.Send.demo_returned"
   ],
   "note": "False as stated: the executor releases the entry, a local variable of the caller, after the wake-up that lets the caller return; an early return of WaitOnAddress lets SendTask return E_PENDING before the callback ran. Proved: result for executions without early returns, at most one run and no lost wake-up for all executions, the one late access is the last one."
  },
  {
   "property": "C67",
   "status": "partial",
   "theorems": [
    "Verif.PoolTimer.C67_refs_partial",
    "Verif.PoolTimer.C67_alive_partial",
    "Verif.PoolTimer.C67_handles_partial",
    "Verif.PoolTimer.C67_single",
    "Verif.PoolTimer.C67_canceled",
    "Verif.PoolTimer.C67_refs_fails",
    "Verif.PoolTimer.C67_use_after_free_fails",
    "Verif.PoolTimer.demo_armed",
    "Verif.PoolTimer.demo_cancel"
   ],
   "note": "False as stated: a callback that runs completely between Timer::Cancel taking the handle and deleting the system timer makes Cancel release a reference it does not own. Reference count, lifetime and handles proved for all schedules without that window; single pending activation and cancellation for all schedules."
  },
  {
   "property": "C68",
   "status": "partial",
   "theorems": [
    "Verif.IoOp.C68_refs_partial",
    "Verif.IoOp.C68_result",
    "Verif.IoOp.C68_token",
    "Verif.IoOp.C68_token_example",
    "Verif.IoOp.C68_completes",
    "Verif.IoOp.C68_status_final",
    "Verif.IoOp.C68_buffer_partial",
    "Verif.IoOp.C68_getResult",
    "Verif.IoOp.C68_handle_partial",
    "Verif.IoOp.C68_connect_partial",
    "Verif.IoOp.C68_leak_fails",
    "Verif.IoOp.C68_leak_concrete_fails",
    "Verif.IoOp.C68_handle_fails",
    "Verif.IoOp.C68_buffer_fails",
    "Verif.IoOp.C68_token_fails",
    "Verif.IoOp.C68_connect_fails",
    "Verif.IoOp.C68_warn_fails",
    "Verif.IoOp.demo_pending"
   ],
   "note": "False as stated: the move constructor of AsyncFile forgets the notification mode, so requests that succeed at once leak their operation (proved for every continuation); after a cancellation the buffer is still in use; a client connected early is reported as an error. Proved: exact references for handles that know their mode, results and completion for all executions, buffer for completed tasks."
  },
  {
   "property": "C69",
   "status": "partial",
   "theorems": [
    "Verif.Proxy.C69_order",
    "Verif.Proxy.C69_once",
    "Verif.Proxy.C69_one_producer",
    "Verif.Proxy.C69_counts",
    "Verif.Proxy.C69_message_runs",
    "Verif.Proxy.C69_no_lost_wakeup_partial",
    "Verif.Proxy.C69_dead_for_ever_fails",
    "Verif.Proxy.C69_lost_fails",
    "Verif.Proxy.C69_stuck_for_ever_fails",
    "Verif.Proxy.C69_stop_fails",
    "Verif.Proxy.C69_join_fails",
    "Verif.Proxy.demo_two",
    "Verif.Proxy.demo_second"
   ],
   "note": "Order, single execution, single producer and the counts hold for all executions with any nesting. No lost wake-up holds if tasks do not take messages; otherwise it is false without any race, and the runner is then dead for ever (proved). Stop: a post overlapping Join is accepted and never run or cancelled; Join may wait for ever."
  },
  {
   "property": "C70",
   "status": "partial",
   "theorems": [
    "Verif.Handle.C70_never_undefined",
    "Verif.Handle.C70_one_owner",
    "Verif.Handle.C70_no_leak",
    "Verif.Handle.C70_valid_open",
    "Verif.Handle.C70_destroy_closes",
    "Verif.Handle.C70_copy_independent",
    "Verif.Handle.C70_self",
    "Verif.Handle.C70_example",
    "Verif.Handle.C70_copy_failure_fails",
    "Verif.Handle.C70_two_wrappers_fails",
    "Verif.Handle.C70_registry_result_fails",
    "Verif.Handle.demo_all",
    "Verif.Handle.C70_close"
   ],
   "note": "All ownership claims hold for all sequences. The last clause is false: a failing duplicate silently empties the target (also in self assignment), and the registry traits report the result of RegCloseKey the wrong way round. GetAddressOf (277) is outside the contract unless the wrapper is empty."
  },
  {
   "property": "C71",
   "status": "partial",
   "theorems": [
    "Verif.PoolWait.C71_refs_partial",
    "Verif.PoolWait.C71_handles_partial",
    "Verif.PoolWait.C71_single",
    "Verif.PoolWait.C71_completion",
    "Verif.PoolWait.C71_cancelled_stays",
    "Verif.PoolWait.C71_refs_fails",
    "Verif.PoolWait.C71_use_after_free_fails",
    "Verif.PoolWait.C71_leak_fails",
    "Verif.PoolWait.C71_cancel_fails",
    "Verif.PoolWait.demo_armed",
    "Verif.PoolWait.demo_fires"
   ],
   "note": "Registered at most once: all schedules. Counters exact and registrations ended while the operation lives: all schedules in which no callback ends between lines 582 and 594 of a cancellation. False otherwise (double release of the weak reference, memory freed under the user). Dropping the operation without Cancel leaves a registration that is never ended (proved for all continuations). Cancel does not exclude a later registration."
  },
  {
   "property": "C72",
   "status": "partial",
   "theorems": [
    "Verif.WaitTask.C72_results",
    "Verif.WaitTask.C72_serial",
    "Verif.WaitTask.C72_ended",
    "Verif.WaitTask.C72_cancelled",
    "Verif.WaitTask.C72_alive_partial",
    "Verif.WaitTask.C72_lost_fails",
    "Verif.WaitTask.C72_error_fails"
   ],
   "note": "Order, exclusion, end and cancellation hold in all schedules. Liveness is false: the completing thread may swallow the handler of the next round (C72_lost_fails), and a failing re-registration is dropped (C72_error_fails); C72_alive_partial excludes both."
  },
  {
   "property": "C73",
   "status": "partial",
   "theorems": [
    "Verif.Soo.C73_safe_partial",
    "Verif.Soo.C73_list_ops_partial",
    "Verif.Soo.C73_room",
    "Verif.Soo.C73_copy",
    "Verif.Soo.C73_move",
    "Verif.Soo.C73_new_del",
    "Verif.Soo.C73_locked",
    "Verif.Soo.C73_memory",
    "Verif.Soo.C73_overflow_fails"
   ],
   "note": "Safety and list effect need sizes in bytes below 2^64 (the code does not check: C73_overflow_fails) and, for types with constructors, Insert/Remove that do not shift overlapping ranges (as in C19). Ownership, copies, moves and the no-allocation claim hold for every history within the preconditions."
  },
  {
   "property": "C74",
   "status": "partial",
   "theorems": [
    "Verif.Cache.C74_timezone_partial",
    "Verif.Cache.C74_no_leak_partial",
    "Verif.Cache.C74_exit_fails",
    "Verif.Cache.C74_token_handles",
    "Verif.Cache.C74_token_stable",
    "Verif.Cache.C74_token_valid"
   ],
   "note": "The token handles are proved for all schedules. For the time zone the exit handler must not run while a thread is between reading the static and AddRef (C74_exit_fails shows the use after free)."
  },
  {
   "property": "C75",
   "status": "partial",
   "theorems": [
    "Verif.TokenFrom.C75_safe",
    "Verif.TokenFrom.C75_reports_partial",
    "Verif.TokenFrom.C75_balanced",
    "Verif.TokenFrom.C75_source",
    "Verif.TokenFrom.C75_null",
    "Verif.TokenFrom.C75_leak_fails",
    "Verif.TokenFrom.C75_mismatch",
    "Verif.TokenFrom.C75_mismatch_example",
    "Verif.TokenFrom.C75_mismatch_fails",
    "Verif.TokenFrom.C75_addRef",
    "Verif.TokenFrom.C75_releaseWeak",
    "Verif.TokenFrom.C75_release"
   ],
   "note": "The answers are right and plain objects and sources are balanced, for all histories. C75_leak_fails proves that the second half is false in every history: FromPtr wraps a new object, which starts with one reference, in RefPtr(T*), which adds another, so that no token made by FromPtr is ever freed, nor the memory of the object it watches. C75_mismatch_fails: a source comes from new and goes to free."
  },
  {
   "property": "C76",
   "status": "partial",
   "theorems": [
    "Verif.LowPriv.C76_handles",
    "Verif.LowPriv.C76_restored_partial",
    "Verif.LowPriv.C76_restore_fails",
    "Verif.LowPriv.C76_once",
    "Verif.LowPriv.C76_error",
    "Verif.LowPriv.C76_low_partial",
    "Verif.LowPriv.C76_low_fails",
    "Verif.LowPriv.C76_fallback_thread",
    "Verif.LowPriv.C76_privileges_partial",
    "Verif.LowPriv.C76_privileges_fails",
    "Verif.LowPriv.C76_cached",
    "Verif.LowPriv.C76_close"
   ],
   "note": "Handles, number of processes and errors: proved for all answers. Restoring the token holds if the destructor's SetThreadToken succeeds; otherwise the thread stays the system's and nobody is told (C76_restore_fails). Low rights hold only on the one path that meets no obstacle; on every other the process has full rights with S_OK (C76_low_fails). A failed impersonation is not checked, so that the privileges are switched on in the caller's own token (C76_privileges_fails)."
  },
  {
   "property": "C77",
   "status": "partial",
   "theorems": [
    "Verif.LocalTime.C77_exact_partial",
    "Verif.LocalTime.C77_fixed",
    "Verif.LocalTime.C77_round_partial",
    "Verif.LocalTime.C77_round_fails",
    "Verif.LocalTime.C77_order",
    "Verif.LocalTime.C77_invalid_partial",
    "Verif.LocalTime.C77_no_time",
    "Verif.LocalTime.C77_late_fails",
    "Verif.LocalTime.C77_unix_fails",
    "Verif.LocalTime.C77_compare_fails"
   ],
   "note": "Exact wherever the zone's answer lies before the year 30828. Beyond, the constructor's ignored failure makes UINT64_MAX + rest wrap to 1601 (C77_late_fails). C77_round_fails: at a clock change no zone can give the round trip. C77_unix_fails and C77_compare_fails: LocalDataTime takes Unix timestamps for local times and compares without regard to the zone."
  },
  {
   "property": "C78",
   "status": "partial",
   "theorems": [
    "Verif.Coro.C78_once",
    "Verif.Coro.C78_place",
    "Verif.Coro.C78_result_partial",
    "Verif.Coro.C78_own",
    "Verif.Coro.C78_own_stable",
    "Verif.Coro.C78_completes_partial",
    "Verif.Coro.C78_lost_only",
    "Verif.Coro.C78_stuck_fails",
    "Verif.Coro.C78_destroyed_fails",
    "Verif.Coro.C78_leak_fails",
    "Verif.Coro.C78_result_fails",
    "Verif.Coro.C78_place_fails"
   ],
   "note": "Invariant over all interleavings of a coroutine with any number of awaits: at most one registration, closure or execution of the frame exists, so no double resume and no use of a freed frame; started on a runner it stays there; its task completes when the body ends. Completion needs the runner to stay alive and accept tasks: otherwise the frame is destroyed or leaked and the task is never completed (proved for ever). The awaited value is right only if WaitOnAddress does not return early."
  },
  {
   "property": "C79",
   "status": "partial",
   "theorems": [
    "Verif.Chain.C79_codes",
    "Verif.Chain.C79_then",
    "Verif.Chain.C79_error",
    "Verif.Chain.C79_errorTask",
    "Verif.Chain.C79_task",
    "Verif.Chain.C79_errorIf",
    "Verif.Chain.C79_once",
    "Verif.Chain.C79_cancelled_not_called",
    "Verif.Chain.C79_place_partial",
    "Verif.Chain.C79_completes_partial",
    "Verif.Chain.C79_deterministic_partial",
    "Verif.Chain.C79_cancel_fails",
    "Verif.Chain.C79_lost_fails",
    "Verif.Chain.C79_place_fails",
    "Verif.Chain.C79_error_place_fails",
    "Verif.Chain.C79_refused_fails"
   ],
   "note": "Invariant over all executions of any graph: every stored result is the one the specification allows, callbacks are called at most once and for their case; determinism without cancellation. The right thread needs the runner to be alive, completion needs it to accept tasks: otherwise the callback is called on the wrong thread or the task never completes (proved for ever). Cancellation does not propagate as cancellation through Then."
  },
  {
   "property": "C80",
   "status": "partial",
   "theorems": [
    "Verif.ErrCode.C80_failed",
    "Verif.ErrCode.C80_value",
    "Verif.ErrCode.C80_injective_partial",
    "Verif.ErrCode.C80_nt",
    "Verif.ErrCode.C80_names",
    "Verif.ErrCode.C80_exceptions",
    "Verif.ErrCode.C80_cast",
    "Verif.ErrCode.C80_injective_fails",
    "Verif.ErrCode.C80_names_fails",
    "Verif.ErrCode.C80_wakes_fails",
    "Verif.ErrCode.C80_failed_fails"
   ],
   "note": "Proved for Windows and for SafeCast; statuses above 65535 collide, and on the other platforms every named code is a success (ErrorCode.h 25-35) and with a 64-bit long every converted status too."
  },
  {
   "property": "C81",
   "status": "partial",
   "theorems": [
    "Verif.CpuCount.C81_bits32",
    "Verif.CpuCount.C81_bits64",
    "Verif.CpuCount.C81_positive",
    "Verif.CpuCount.C81_positive_unix",
    "Verif.CpuCount.C81_count_partial",
    "Verif.CpuCount.C81_native",
    "Verif.CpuCount.C81_count_fails",
    "Verif.CpuCount.C81_stable",
    "Verif.CpuCount.C81_stable_unix_partial",
    "Verif.CpuCount.C81_stable_unix_fails",
    "Verif.CpuCount.C81_example"
   ],
   "note": "The bit counts, positivity and (Windows) stability are proved in full; the count is right for machines with one package only (C81_count_fails), and on Unix first callers may disagree if the number changes."
  },
  {
   "property": "C82",
   "status": "partial",
   "theorems": [
    "Verif.Tchar.C82_length",
    "Verif.Tchar.C82_compare_partial",
    "Verif.Tchar.C82_ignore_partial",
    "Verif.Tchar.C82_counted",
    "Verif.Tchar.C82_counted_generic_partial",
    "Verif.Tchar.C82_counted_ignore_partial",
    "Verif.Tchar.C82_counted_fails",
    "Verif.Tchar.C82_counted_example",
    "Verif.Tchar.C82_compare_fails",
    "Verif.Tchar.C82_signed_fails"
   ],
   "note": "Exact except: the generic counted StringCompare (char16_t / char32_t) returns the difference of the units behind equal texts, char32_t units from 2^31 on wrap, MSVC char units from 0x80 on are ordered differently by the two functions."
  },
  {
   "property": "C83",
   "status": "partial",
   "theorems": [
    "Verif.ComObj.C83_query",
    "Verif.ComObj.C83_type",
    "Verif.ComObj.C83_identity",
    "Verif.ComObj.C83_identity_first",
    "Verif.ComObj.C83_life_partial",
    "Verif.ComObj.C83_example",
    "Verif.ComObj.C83_unnamed_fails",
    "Verif.ComObj.C83_wrap_fails"
   ],
   "note": "The life time is proved for fewer than 2^32 simultaneous references (C83_wrap_fails); an interface implemented through inheritance but not named in a chain is denied (C83_unnamed_fails)."
  },
  {
   "property": "C84",
   "status": "partial",
   "theorems": [
    "Verif.Bind.C84_weak",
    "Verif.Bind.C84_throws",
    "Verif.Bind.C84_weak_no_leak",
    "Verif.Bind.C84_owning_partial",
    "Verif.Bind.C84_observer_partial",
    "Verif.Bind.C84_example",
    "Verif.Bind.C84_example_owning",
    "Verif.Bind.C84_self_fails",
    "Verif.Bind.C84_observer_fails",
    "Verif.Bind.C84_raw_fails",
    "Verif.Bind.C84_null_fails"
   ],
   "note": "Weak captures are proved without restriction. Owning captures need a non-null pointer and a functor that is not destroyed during its own call; observer captures need an object that is not destroyed during the call; the negations are proved."
  },
  {
   "property": "C85",
   "status": "partial",
   "theorems": [
    "Verif.SysToken.C85_handles",
    "Verif.SysToken.C85_first",
    "Verif.SysToken.C85_system_partial",
    "Verif.SysToken.C85_limited_handles",
    "Verif.SysToken.C85_limited",
    "Verif.SysToken.C85_impersonation",
    "Verif.SysToken.C85_example",
    "Verif.SysToken.C85_system_fails"
   ],
   "note": "Handles and the choice are proved for all environments; that the token is a system token needs that no other program of the session calls itself winlogon.exe (C85_system_fails)."
  },
  {
   "property": "C86",
   "status": "partial",
   "theorems": [
    "Verif.FileVer.C86_atLeast",
    "Verif.FileVer.C86_os_fields",
    "Verif.FileVer.C86_file",
    "Verif.FileVer.C86_honest_partial",
    "Verif.FileVer.C86_inPage",
    "Verif.FileVer.C86_paired",
    "Verif.FileVer.C86_example",
    "Verif.FileVer.C86_example_file",
    "Verif.FileVer.C86_silent_fails",
    "Verif.FileVer.C86_empty_fails",
    "Verif.FileVer.C86_half_fails"
   ],
   "note": "The version of the operating system is proved completely. GetFileVersion needs failing calls to leave an error code and version resources to contain a version block."
  },
  {
   "property": "C87",
   "status": "partial",
   "theorems": [
    "Verif.TimerWait.C87_no_lost_wakeup",
    "Verif.TimerWait.C87_no_start",
    "Verif.TimerWait.C87_truthful",
    "Verif.TimerWait.C87_bounded",
    "Verif.TimerWait.C87_woken_partial",
    "Verif.TimerWait.C87_result_partial",
    "Verif.TimerWait.C87_proxy",
    "Verif.TimerWait.C87_window_fails",
    "Verif.TimerWait.C87_drop_fails",
    "Verif.TimerWait.C87_example"
   ],
   "note": "No lost wake-up, no start after Cancel, truthful results and the step bound hold for every runner and interleaving. That everybody is woken is proved except for two defects, both proved as negations: Cancel inside the window between a test of the flag and hr = E_PENDING of PostTaskInternal, and a timer whose closure is destroyed with the queue of its runner."
  },
  {
   "property": "C88",
   "status": "partial",
   "theorems": [
    "Verif.LinuxPool.C88_limit",
    "Verif.LinuxPool.C88_limit_500",
    "Verif.LinuxPool.C88_once_partial",
    "Verif.LinuxPool.C88_refused_partial",
    "Verif.LinuxPool.C88_kept_partial",
    "Verif.LinuxPool.C88_quiet_partial",
    "Verif.LinuxPool.C88_all_run_partial",
    "Verif.LinuxPool.C88_crash_fails",
    "Verif.LinuxPool.C88_aba_fails",
    "Verif.LinuxPool.C88_stuck_fails",
    "Verif.LinuxPool.C88_example"
   ],
   "note": "The limit holds in every execution. Exactly-once is proved for callers that do not pop at the same time; the code has three defects, each proved as a negation: parallel Pop of a single-consumer stack loses tasks, the pending queue is not looked at by sleeping threads, and a new thread announces itself before it blocks SIGUSR1. The pending queue is taken as an atomic FIFO, which is generous."
  },
  {
   "property": "C89",
   "status": "partial",
   "theorems": [
    "Verif.Arr.C89_sort_partial",
    "Verif.Arr.C89_throw_fails",
    "Verif.Arr.C89_object_fails",
    "Verif.Arr.C89_example"
   ],
   "note": "Proved for trivially copyable elements and comparisons that do not throw, after any history of array operations and sorts, with qsort as an arbitrary function meeting its contract. False otherwise: a comparison that throws leaves the array locked for ever, and other element types are moved as bytes."
  },
  {
   "property": "C90",
   "status": "partial",
   "theorems": [
    "Verif.Guard.C90_nested",
    "Verif.Guard.C90_once",
    "Verif.Guard.C90_exclusion",
    "Verif.Guard.C90_progress",
    "Verif.Guard.C90_copy_fails",
    "Verif.Guard.C90_again_fails",
    "Verif.Guard.C90_example"
   ],
   "note": "Full for guards that are not copied and locks taken in ascending order. False: a copied AutoCleanup guard (possible wherever _HAS_CXX17 is not 1) calls the callback again; a lock taken again by its holder is never granted. SRWLock itself is the operating system's and taken as an atomic reader/writer lock."
  },
  {
   "property": "C91",
   "status": "partial",
   "theorems": [
    "Verif.Alloc.C91_alloc",
    "Verif.Alloc.C91_realloc",
    "Verif.Alloc.C91_rezero_windows",
    "Verif.Alloc.C91_rezero_partial",
    "Verif.Alloc.C91_rezero_fails",
    "Verif.Alloc.C91_realloc_zero_fails",
    "Verif.Alloc.C91_objects_partial",
    "Verif.Alloc.C91_no_leak_partial",
    "Verif.Alloc.C91_throw_fails",
    "Verif.Alloc.C91_base_fails",
    "Verif.Alloc.C91_example",
    "Verif.Alloc.C91_free",
    "Verif.Alloc.C91_memset0",
    "Verif.Alloc.C91_realloc_start",
    "Verif.Alloc.C91_delete"
   ],
   "note": "Full for Alloc, AllocAndZero, ReAlloc to a size other than zero, and ReAllocAndZero on Windows. False: ReAllocAndZero elsewhere loses the contents; ReAlloc(p, 0) returns null though the block is freed; New leaks the block of a constructor that throws; Delete through a base class that is not the first frees an interior pointer. Sizes are unbounded naturals and realloc always moves the block in the model."
  },
  {
   "property": "C92",
   "status": "partial",
   "theorems": [
    "Verif.StrHeap.C92_append_partial",
    "Verif.StrHeap.C92_format_partial",
    "Verif.StrHeap.C92_empty_fails",
    "Verif.StrHeap.C92_va_list_fails",
    "Verif.StrHeap.C92_own_fails",
    "Verif.StrHeap.C92_example",
    "Verif.StrHeap.C92_empty_case",
    "Verif.StrHeap.C92_own_case"
   ],
   "note": "Exact result of AppendFormat and Format on Windows after any history, for arguments outside the String itself, unless the formatted text is empty and the String is empty and shared or static. Proved false in general: formatting to the empty text writes the terminator into the constant static block (C92_empty_fails), the va_list is used twice without va_copy (C92_va_list_fails, everywhere but on Windows), a String's own text as argument is read after its block was freed or overwritten (C92_own_fails). On failure Format leaves the String empty."
  },
  {
   "property": "C93",
   "status": "partial",
   "theorems": [
    "Verif.Utf.C93_to_ansi",
    "Verif.Utf.C93_from_ansi_partial",
    "Verif.Utf.C93_same_bytes_partial",
    "Verif.Utf.C93_same_text_partial",
    "Verif.Utf.C93_silent_fails",
    "Verif.Utf.C93_cp_fails",
    "Verif.Utf.C93_cp_append_partial",
    "Verif.Utf.C93_32LE_fails",
    "Verif.Utf.C93_be_fails",
    "Verif.Utf.C93_example"
   ],
   "note": "To a code page: total correctness of the UTF-16 case (C93_to_ansi, termination included) and equality of the bytes for the other forms (UTF-32 little endian only in the BMP, C93_32LE_fails). From a code page: exact where the system converts and the result is not longer than the source. Proved false in general: a failed MultiByteToWideChar is reported as S_OK with the text lost (C93_silent_fails), code page to code page copies bytes (C93_cp_fails), into an empty big-endian String the result dangles (C93_be_fails)."
  },
  {
   "property": "C94",
   "status": "proved",
   "theorems": [
    "Verif.Current.C94_current",
    "Verif.Current.C94_typed",
    "Verif.Current.C94_loop",
    "Verif.Current.C94_bound",
    "Verif.Current.C94_fixed",
    "Verif.Current.C94_example",
    "Verif.Current.C94_example_current",
    "Verif.Current.C94_pool_case"
   ],
   "note": "the premise of C94_bound (the thread is none of the pool's) is needed: C94_pool_case"
  },
  {
   "property": "C95",
   "status": "partial",
   "theorems": [
    "Verif.Parallel.Life.C95_working_partial",
    "Verif.Parallel.Life.C95_late_partial",
    "Verif.Parallel.Life.C95_destroyed_partial",
    "Verif.Parallel.Life.C95_quiet_count",
    "Verif.Parallel.Life.C95_after_fails",
    "Verif.Parallel.Life.C95_leak_fails",
    "Verif.Parallel.Life.C95_interrupt_leak_fails",
    "Verif.Parallel.Life.C95_example"
   ],
   "note": "fails as stated: an executor uses the runner after releasing its last reference, and an executor that leaves by break keeps the shared reference for ever; proved: users, posts and the working part of executors never touch a destroyed runner, the count is exact, no use after destruction if the last reference is given up while nobody is active, destruction if no executor left last by break"
  },
  {
   "property": "C96",
   "status": "partial",
   "theorems": [
    "Verif.Throw.C96_others_partial",
    "Verif.Throw.C96_loop",
    "Verif.Throw.C96_contained",
    "Verif.Throw.C96_pool",
    "Verif.Throw.C96_refused",
    "Verif.Throw.C96_timer",
    "Verif.Throw.C96_refused_example",
    "Verif.Throw.C96_waiter_fails",
    "Verif.Throw.C96_join_fails",
    "Verif.Throw.C96_example"
   ],
   "note": "fails for the throwing task itself on a bound thread: its waiters and Join are never released and it is leaked; proved: all other tasks run once and in order with the right results, the loop neither oversleeps nor spins after any number of exceptions, cancellation is contained, on pool threads the process ends"
  },
  {
   "property": "C97",
   "status": "partial",
   "theorems": [
    "Verif.CharView.C97_strings",
    "Verif.CharView.C97_split_partial",
    "Verif.CharView.C97_sets_partial",
    "Verif.CharView.C97_codes",
    "Verif.CharView.C97_set_fails",
    "Verif.CharView.C97_ansi_fails",
    "Verif.CharView.C97_example"
   ],
   "note": "search by string proved for UTF-8/16/32 in both byte orders; split up to the dropped empty last piece (see C15); sets only for characters of one unit. Fails for sets with characters of several units (half a character is cut off) and for double-byte ANSI code pages"
  },
  {
   "property": "C98",
   "status": "partial",
   "theorems": [
    "Verif.CharView.C98_order_partial",
    "Verif.CharView.C98_equal",
    "Verif.CharView.C98_bmp_partial",
    "Verif.CharView.C98_order_fails",
    "Verif.CharView.C98_case_fails",
    "Verif.CharView.C98_example"
   ],
   "note": "order proved for UTF-8 (unsigned units) and UTF-32, for UTF-16 on the BMP; equality for all; fails for UTF-16 with surrogates, signed char UTF-8, UTF-16 of the other byte order (order and case)"
  },
  {
   "property": "C99",
   "status": "partial",
   "theorems": [
    "Verif.StrHeap.C99_codepage",
    "Verif.StrHeap.C99_copy",
    "Verif.StrHeap.C99_shared_fails",
    "Verif.StrHeap.C99_locked_fails",
    "Verif.StrHeap.C99_example",
    "Verif.StrHeap.C99_refused"
   ],
   "note": "exact effect of every successful member function on the code page; false when the storage is shared (every change except Remove resets it to the default) and when the source is locked (bytes are copied, the label is not)"
  },
  {
   "property": "C100",
   "status": "partial",
   "theorems": [
    "Verif.Sleep.C100_right",
    "Verif.Sleep.C100_false",
    "Verif.Sleep.C100_token",
    "Verif.Sleep.C100_ends_partial",
    "Verif.Sleep.C100_token_fails",
    "Verif.Sleep.C100_stop_fails",
    "Verif.Sleep.C100_stop_reached",
    "Verif.Sleep.C100_refused_reached",
    "Verif.Sleep.C100_example",
    "Verif.Sleep.C100_token_example"
   ],
   "note": "exact results for all executions; the task ends if the runner goes on. False: cancelling the token wakes nobody before the delay is over, and on a runner that stops the task never ends (both for all states)."
  },
  {
   "property": "C101",
   "status": "partial",
   "theorems": [
    "Verif.Delay.C101_pool_partial",
    "Verif.Delay.C101_long_fails",
    "Verif.Delay.C101_max_fails",
    "Verif.Delay.C101_negative_fails",
    "Verif.Delay.C101_fast_fails",
    "Verif.Delay.C101_wait_partial",
    "Verif.Delay.C101_timeout_partial",
    "Verif.Delay.C101_example",
    "Verif.Delay.C101_fast_example",
    "Verif.Delay.C101_long_example",
    "Verif.Delay.C101_max_example",
    "Verif.Delay.C101_slow_partial",
    "Verif.Delay.C101_slow_wait_partial",
    "Verif.Delay.C101_slow_fails",
    "Verif.Delay.C101_slow_example"
   ],
   "note": "Proved for counter frequencies that are multiples or divisors of 10 MHz, deadlines inside the 64-bit range and, on pool runners, less than 2^32 - 1 ms left. The claim is false outside: C101_long_fails (delays above 49.7 days are cut), C101_max_fails (TimeSpan::GetMax() fires at once at even multiples of 10 MHz), C101_negative_fails, C101_fast_fails (every frequency above 10 MHz that is no multiple of it makes every delay early), C101_slow_fails (every frequency below 10 MHz that does not divide it makes delays late by a fixed part)."
  },
  {
   "property": "C102",
   "status": "partial",
   "theorems": [
    "Verif.NText.C102_append_partial",
    "Verif.NText.C102_append_unicode_partial",
    "Verif.NText.C102_get_partial",
    "Verif.NText.C102_code_page_fails",
    "Verif.NText.C102_dangling_fails",
    "Verif.NText.C102_append_fails",
    "Verif.NText.C102_example"
   ],
   "note": "Proved for all 36 pairs except: U+E000 after UTF-16 (C03), supplementary characters from UTF-32LE through UTF-16LE (C04), conversions that move a temporary into an empty destination (UTF-16LE to UTF-32BE, ANSI to UTF-16BE/32BE: freed storage, C102_dangling_fails), ANSI views of another code page (C102_append_fails) and texts beyond the limits of the system calls. GetString of an ANSI NString replaces the destination's code page (C102_code_page_fails)."
  },
  {
   "property": "C103",
   "status": "partial",
   "theorems": [
    "Verif.WaitLoop.C103_true_partial",
    "Verif.WaitLoop.C103_idle_partial",
    "Verif.WaitLoop.C103_object_partial",
    "Verif.WaitLoop.C103_timeout_partial",
    "Verif.WaitLoop.C103_failed_partial",
    "Verif.WaitLoop.C103_due_partial",
    "Verif.WaitLoop.C103_sleep_partial",
    "Verif.WaitLoop.C103_starved_fails",
    "Verif.WaitLoop.C103_starved_contract",
    "Verif.WaitLoop.C103_example"
   ],
   "note": "Truth of every result for arbitrary obedient completion handlers; exact effect of each answer of the system when the handlers leave the manager alone; the sleep is bounded by the earliest limit and the waits due first are resolved when it is over. Missing: a second wait for a handle (C54_replace_fails). The last clause fails: time-outs are only looked at when the system's wait itself times out, so a steady stream of messages keeps an expired wait pending for ever."
  },
  {
   "property": "C104",
   "status": "partial",
   "theorems": [
    "Verif.WaitObj.C104_null_partial",
    "Verif.WaitObj.C104_thread_partial",
    "Verif.WaitObj.C104_pool_partial",
    "Verif.WaitObj.C104_poll_partial",
    "Verif.WaitObj.C104_abandoned_fails",
    "Verif.WaitObj.C104_refused_fails",
    "Verif.WaitObj.C104_stopped_fails",
    "Verif.WaitObj.C104_example"
   ],
   "note": "Proved for waits served by a thread runner's own loop (results as in C103), for signalled objects and limits on the thread pool, and for the immediate check. It fails on the thread pool for abandoned mutexes (always WAIT_OBJECT_0) and for objects that cannot be registered (status Error, the callback is never called), and for CreateWait on a stopped thread runner from another thread."
  },
  {
   "property": "C105",
   "status": "partial",
   "theorems": [
    "Verif.Layout.C105_layout",
    "Verif.Layout.C105_pack",
    "Verif.Layout.C105_atomic_iff",
    "Verif.Layout.C105_atomic_fails",
    "Verif.Layout.C105_targets",
    "Verif.Layout.C105_example",
    "Verif.Layout.C105_array_partial",
    "Verif.Layout.C105_array_fails",
    "Verif.Layout.C105_string",
    "Verif.Layout.C105_result_partial",
    "Verif.Layout.C105_result_fails",
    "Verif.Layout.C105_optional_fails",
    "Verif.Layout.C105_optional_align",
    "Verif.Layout.C105_optional_partial",
    "Verif.Layout.C105_soo_partial",
    "Verif.Layout.C105_soo_fails",
    "Verif.Layout.C105_value_example"
   ],
   "note": "Exact for the atomic words (C105_atomic_iff classifies all 17): on 64-bit processors the lock of a cancellation source, the handle of a pool wait and two timing wheel bit maps are never aligned, on 32-bit ones the flags of the parallel runner. Strings: always aligned. Arrays, results: aligned up to two pointers / one pointer, false beyond. Optional: one of two neighbours is never aligned. Trusted: layout rule of the compilers under pack(4), malloc's guarantee."
  },
  {
   "property": "C106",
   "status": "partial",
   "theorems": [
    "Verif.MsgLoop.C106_order",
    "Verif.MsgLoop.C106_result",
    "Verif.MsgLoop.C106_awake_partial",
    "Verif.MsgLoop.C106_ui_message",
    "Verif.MsgLoop.C106_ui_message_load",
    "Verif.MsgLoop.C106_ui_task",
    "Verif.MsgLoop.C106_ui_interrupt",
    "Verif.MsgLoop.C106_bg_message_partial",
    "Verif.MsgLoop.C106_bg_task",
    "Verif.MsgLoop.C106_bg_timers",
    "Verif.MsgLoop.C106_ui_starve_fails",
    "Verif.MsgLoop.C106_ui_flood_fails",
    "Verif.MsgLoop.C106_bg_starve_fails",
    "Verif.MsgLoop.C106_bg_interrupt_fails",
    "Verif.MsgLoop.C106_look_fails",
    "Verif.MsgLoop.C106_checks_fails",
    "Verif.MsgLoop.C106_example"
   ],
   "note": "Order, result and the bounds are proved for all executions. Fairness fails: a flood of messages starves tasks and the interruption of the UI loop; a task that reposts itself starves its timers and waits; a task that reposts itself starves messages, WM_QUIT and waits of the background loop; a background loop with only timers or waits never notices its interruption."
  },
  {
   "property": "C107",
   "status": "partial",
   "theorems": [
    "Verif.RefGraph.C107_counts_partial",
    "Verif.RefGraph.C107_reachable_partial",
    "Verif.RefGraph.C107_during_partial",
    "Verif.RefGraph.C107_leak_cycle_partial",
    "Verif.RefGraph.C107_acyclic_partial",
    "Verif.RefGraph.C107_terminates_partial",
    "Verif.RefGraph.C107_leak_fails",
    "Verif.RefGraph.C107_ring_fails",
    "Verif.RefGraph.C107_depth_fails",
    "Verif.RefGraph.C107_reenter_fails",
    "Verif.RefGraph.C107_example",
    "Verif.RefGraph.C107_chain_acyclic",
    "Verif.RefGraph.C107_read_member",
    "Verif.RefGraph.C107_addRef",
    "Verif.RefGraph.C107_write_member"
   ],
   "note": "proved for all graphs and programs whose destructors have no body of their own; negated for a destructor that reads the variable being reset (Attach releases before it overwrites), for cycles (leak for ever), and for the depth of nested destructors (unbounded). One thread; no weak pointers here (C28, C60)."
  },
  {
   "property": "C108",
   "status": "partial",
   "theorems": [
    "Verif.Grow.C108_alloc_iff",
    "Verif.Grow.C108_realloc_iff",
    "Verif.Grow.C108_realloc_class",
    "Verif.Grow.C108_str_alloc_iff",
    "Verif.Grow.C108_str_realloc_iff",
    "Verif.Grow.C108_soo_iff",
    "Verif.Grow.C108_wrap_fails",
    "Verif.Grow.C108_waste_fails",
    "Verif.Grow.C108_add",
    "Verif.Grow.C108_append",
    "Verif.Grow.C108_soo_add",
    "Verif.Grow.C108_resize_fails",
    "Verif.Grow.C108_example"
   ],
   "note": "exact conditions under which a block covers what it records; at most 3 (4 with small object optimisation) moves per appended element; negated for sizes that wrap, for the memory asked for when an array of class objects grows (bytes taken for elements, Array.h 419), and for growth by Resize (quadratic)"
  },
  {
   "property": "C109",
   "status": "partial",
   "theorems": [
    "Verif.Sequenced.Life.C109_safe",
    "Verif.Sequenced.Life.C109_destroyed",
    "Verif.Sequenced.Life.C109_each_once_partial",
    "Verif.Sequenced.Life.C109_at_most_once_partial",
    "Verif.Sequenced.Life.C109_terminates",
    "Verif.Sequenced.Life.C109_progress",
    "Verif.Sequenced.Life.C109_released_partial",
    "Verif.Sequenced.Life.C109_abandoned_partial",
    "Verif.Sequenced.Life.C109_abandoned_fails"
   ],
   "note": "Safety, exact moment of destruction, bounded work and progress without owners are proved for all interleavings. The accounting of tasks takes Pop as atomic (C44 shows when two threads pop at once). That no task starts after the last user has left holds when the executor is the only holder and past no check; C109_abandoned_fails gives an execution in which the reference of another executor keeps the queue running."
  },
  {
   "property": "C110",
   "status": "partial",
   "theorems": [
    "Verif.RunnerId.C110_collide",
    "Verif.RunnerId.C110_unique_partial",
    "Verif.RunnerId.C110_fresh_partial",
    "Verif.RunnerId.C110_unique_fails",
    "Verif.RunnerId.C110_zero_fails"
   ],
   "note": "Under every schedule two runners share an id exactly when 2^32 divides the difference of their numbers (C110_collide); so ids are unique and non-zero for the first 2^32-1 runners of a process. After that the 32-bit counter wraps: C110_unique_fails has two live runners with one id, C110_zero_fails one with id 0."
  },
  {
   "property": "C111",
   "status": "partial",
   "theorems": [
    "Verif.UniqueGraph.C111_safe_partial",
    "Verif.UniqueGraph.C111_unique_partial",
    "Verif.UniqueGraph.C111_leak_partial",
    "Verif.UniqueGraph.C111_leak_fails",
    "Verif.UniqueGraph.C111_clear_partial",
    "Verif.UniqueGraph.C111_create_partial",
    "Verif.UniqueGraph.C111_move_partial",
    "Verif.UniqueGraph.C111_pop_front_partial",
    "Verif.UniqueGraph.C111_ends_partial",
    "Verif.UniqueGraph.C111_reenter_fails"
   ],
   "note": "Proved for classes whose destructor bodies do not use handles themselves. Without that the claim is false: Reset calls delete before it overwrites the pointer, so a destructor that clears the handle owning the object deletes it a second time in every state (C111_reenter_fails). Circles leak (C111_leak_fails)."
  },
  {
   "property": "C112",
   "status": "partial",
   "theorems": [
    "Verif.IoCall.C112_once",
    "Verif.IoCall.C112_called_partial",
    "Verif.IoCall.C112_place_partial",
    "Verif.IoCall.C112_code_partial",
    "Verif.IoCall.C112_hidden_fails",
    "Verif.IoCall.C112_hidden_example",
    "Verif.IoCall.C112_timing_fails",
    "Verif.IoCall.C112_lost_fails",
    "Verif.IoCall.C112_lost_example",
    "Verif.IoCall.C112_place_fails",
    "Verif.IoCall.C112_early_fails"
   ],
   "note": "All interleavings. At most one call with the right number of bytes, exactly one if the runner goes on; the status is right for AsyncConnect and outside the call. The code reports reads and writes that fail before the status is looked at as successes, loses the callback with a stopped runner, and runs it on the pool when the runner is gone; these are refuted."
  },
  {
   "property": "C113",
   "status": "partial",
   "theorems": [
    "Verif.ProxyTimer.C113_exactly_once",
    "Verif.ProxyTimer.C113_armed_partial",
    "Verif.ProxyTimer.C113_on_time_partial",
    "Verif.ProxyTimer.C113_progress",
    "Verif.ProxyTimer.C113_remote_fails",
    "Verif.ProxyTimer.C113_remote_example",
    "Verif.ProxyTimer.C113_case",
    "Verif.ProxyTimer.C113_double_fails",
    "Verif.ProxyTimer.C113_double_end",
    "Verif.ProxyTimer.C113_remote_late_fails",
    "Verif.ProxyTimer.C113_dialog_fails"
   ],
   "note": "Exactly-once in every history; for timers of the thread itself the window's timer runs exactly when a timer waits (invariant over the stack of nested calls) and its first message is due by the wake-up time of C42, the first one not before it at most one waiting time later. Refuted: timers of other threads (universal: no WM_TIMER is ever requested for them), dialog inside a callback, twice the time."
  },
  {
   "property": "C114",
   "status": "partial",
   "theorems": [
    "Verif.Repeat.C114_apart_partial",
    "Verif.Repeat.C114_rate_partial",
    "Verif.Repeat.C114_short",
    "Verif.Repeat.C114_stop",
    "Verif.Repeat.C114_cancel",
    "Verif.Repeat.C114_example",
    "Verif.Repeat.C114_tight_fails",
    "Verif.Repeat.C114_tight_example"
   ],
   "note": "Interval kept with less than a millisecond missing per round, on all runners and for all durations; rate bound; no call after false or Cancel. The full claim (no millisecond missing) is refuted for every interval on pool and thread runners by C114_tight_fails."
  },
  {
   "property": "C115",
   "status": "partial",
   "theorems": [
    "Verif.AnsiView.C115_part_partial",
    "Verif.AnsiView.C115_bytes_partial",
    "Verif.AnsiView.C115_example",
    "Verif.AnsiView.C115_null_other",
    "Verif.AnsiView.C115_null_fails",
    "Verif.AnsiView.C115_equal_bytes",
    "Verif.AnsiView.C115_equal_fails"
   ],
   "note": "Proved for all chains with Slice arguments that do not wrap (that case is C13_fails). The null-pointer and the equal-text parts are false: C115_null_fails (universal), C115_equal_fails (witness); equality of bytes is C115_equal_bytes."
  },
  {
   "property": "C116",
   "status": "proved",
   "theorems": [
    "Verif.NStr.C116_copy",
    "Verif.NStr.C116_move",
    "Verif.NStr.C116_no_leak",
    "Verif.NStr.C116_example",
    "Verif.NStr.C116_example_reach"
   ],
   "note": "For every reachable history (Allowed operations, any allocation failures). Locked Strings are outside (C99)."
  },
  {
   "property": "C117",
   "status": "partial",
   "theorems": [
    "Verif.StrHeap.C117_plus",
    "Verif.StrHeap.C117_add_partial",
    "Verif.StrHeap.C117_add_string_partial",
    "Verif.StrHeap.C117_add_char",
    "Verif.StrHeap.C117_assign_partial",
    "Verif.StrHeap.C117_assign_string_partial",
    "Verif.StrHeap.C117_assign_fails",
    "Verif.StrHeap.C117_move_locked_fails",
    "Verif.StrHeap.C117_example"
   ],
   "note": "operator+ and += of a character: full. += of a text of its own unshared storage is C16's case. operator= fails the claim: whenever it throws the old text is lost; the noexcept move assignment of a locked String ends the program."
  }
 ]
}