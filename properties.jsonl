{"id": "C01", "title": "UTF-8 to UTF-16/UTF-32 conversion decodes every well-formed text", "statement": "Appending a UTF-8 string that is the encoding of a sequence of Unicode scalar values to a UTF-32 string appends exactly those scalar values, and to a UTF-16 string appends exactly their UTF-16 encoding; the previous contents of the destination are kept as a prefix.", "quantifier": "every finite sequence of Unicode scalar values, every previous destination content", "why_tests_cant": "There are 1.1 million scalar values and unboundedly many sequences; tests sample a few characters.", "anchors": ["src/YY/Base/Strings/StringTransform.cpp: Transform(u8StringView, u16StringLE*), Transform(u8StringView, u32StringLE*)"]}
{"id": "C02", "title": "UTF-32 to UTF-8 to UTF-32 round trip", "statement": "Converting any UTF-32 string of code points below 0x4000000 (in particular every Unicode text) to UTF-8 and back yields the same string; for code points at or above 0x4000000 the library's own 6-byte form is expected to come back as well.", "quantifier": "every finite sequence of 32-bit code units", "why_tests_cant": "Unbounded sequences and 2^32 code units; the 6-byte branch is never used by realistic test data.", "anchors": ["src/YY/Base/Strings/StringTransform.cpp: Transform(u32StringLEView, u8String*), Transform(u8StringView, u32StringLE*)"]}
{"id": "C03", "title": "UTF-16 to UTF-8/UTF-32 conversion decodes every well-formed UTF-16 text", "statement": "Appending a well-formed UTF-16 string to a UTF-8 (UTF-32) string appends the UTF-8 (UTF-32) encoding of the same scalar values.", "quantifier": "every finite sequence of Unicode scalar values", "why_tests_cant": "A single wrong boundary code point out of 1.1 million is invisible to sampled tests.", "anchors": ["src/YY/Base/Strings/StringTransform.cpp: Transform(u16StringLEView, u8String*), Transform(u16StringLEView, u32StringLE*)"]}
{"id": "C04", "title": "UTF-32 to UTF-16 conversion encodes every Unicode text", "statement": "Appending a UTF-32 string of Unicode scalar values to a UTF-16 string appends its UTF-16 encoding (surrogate pairs for scalar values above U+FFFF).", "quantifier": "every finite sequence of Unicode scalar values", "why_tests_cant": "Input space is unbounded; branch correctness for supplementary planes needs all of them.", "anchors": ["src/YY/Base/Strings/StringTransform.cpp: Transform(u32StringLEView, u16StringLE*), Transform(u32StringBEView, u16StringLE*)"]}
{"id": "C05", "title": "Big-endian conversions agree with little-endian conversions", "statement": "For every input, converting to the big-endian flavour of an encoding gives the byte-swapped code units of the conversion to its little-endian flavour (including the replacement characters emitted for ill-formed input).", "quantifier": "every input string of code units, well-formed or not", "why_tests_cant": "Only ill-formed inputs reach some of the differing branches.", "anchors": ["src/YY/Base/Strings/StringTransform.cpp: Transform(u8StringView, u16StringBE*), Transform(u8StringView, u32StringBE*), Transform(u32StringLEView, u16StringBE*)"]}
{"id": "C06", "title": "Encoding conversion never writes outside its buffer", "statement": "Whatever the input (well-formed or not) each encoding conversion only writes inside the destination buffer it has locked, for every starting capacity.", "quantifier": "every input sequence, every initial size and capacity of the destination", "why_tests_cant": "An overrun needs one specific combination of residual capacity and character class at the end of the buffer.", "anchors": ["src/YY/Base/Strings/StringTransform.cpp: all Transform loops (cchDstNewMax checks)"]}
{"id": "C07", "title": "Conversion of ill-formed text yields well-formed output", "statement": "Converting arbitrary UTF-16 or UTF-8 input (including lone surrogates, overlong forms, truncated sequences) produces well-formed output in which each ill-formed part is replaced by '?', and well-formed characters after an ill-formed part are not lost.", "quantifier": "every sequence of code units", "why_tests_cant": "The ill-formed input space is unbounded and adversarial.", "anchors": ["src/YY/Base/Strings/StringTransform.cpp: Transform(u16StringLEView, u32StringLE*), Transform(u8StringView, u16StringLE*)"]}
{"id": "C08", "title": "Byte-order conversion by move leaves a valid destination", "statement": "Converting a string to the other byte order by move gives the destination the byte-swapped text, and the destination's storage is alive with exactly one owner afterwards.", "quantifier": "every source text, every sharing state of source and destination", "why_tests_cant": "A premature free only shows up under a checking allocator; the test may still read stale bytes successfully.", "anchors": ["src/YY/Base/Strings/StringTransform.cpp: EndianHelper::TransformEndian(StringA&&, StringB*)"]}
{"id": "C09", "title": "String copies are independent", "statement": "After copying a String, any sequence of later modifications (append, set, clear, remove, set item, ...) made through one handle never changes the text observed through another handle, and changes the modified handle exactly as the same modification of an unshared string would.", "quantifier": "every number of handles and every finite history of String operations", "why_tests_cant": "Copy-on-write bugs need particular sharing histories; histories are unbounded.", "anchors": ["include/YY/Base/Strings/String.h: StringBase, StringData"]}
{"id": "C10", "title": "String storage is released exactly once and never used after release", "statement": "In every history of creating, copying, moving, assigning and destroying String handles, each storage block is freed exactly when its last handle goes away; no handle ever refers to a freed block and no block is freed twice. A pointer returned by LockBuffer(n) has room for n characters and a terminator, and a store inside that room changes only that character.", "quantifier": "every finite history over any number of handles", "why_tests_cant": "Leaks and double frees depend on histories; single-scenario tests do not see them.", "anchors": ["include/YY/Base/Strings/String.h: StringData::AddRef, Release, SetString, Attach, Detach"]}
{"id": "C11", "title": "String text is always terminated inside its capacity", "statement": "After every String operation, the size never exceeds the capacity and the character after the last one is the terminator, so the pointer returned as a C string is valid.", "quantifier": "every reachable String state", "why_tests_cant": "Invariant over unbounded operation histories.", "anchors": ["include/YY/Base/Strings/String.h: LockBuffer, UnlockBuffer, SetString, AppendString, Remove"]}
{"id": "C12", "title": "Trimming removes exactly the requested leading/trailing characters", "statement": "TrimStart/TrimEnd/Trim on a String or StringView return the text without its longest prefix/suffix of characters to trim, and nothing else is removed.", "quantifier": "every text, every set of characters to trim", "why_tests_cant": "Off-by-one errors appear only for particular length combinations.", "anchors": ["include/YY/Base/Strings/String.h: TrimStart, TrimEnd, Trim", "include/YY/Base/Strings/StringView.h: TrimStart, TrimEnd, Trim"]}
{"id": "C13", "title": "Remove, Substring and Slice cut exactly the requested range", "statement": "Remove(i,n) deletes exactly the characters in [i,i+n) clipped to the text; Substring(i,n) keeps exactly them; Slice(a,b) drops the first a and last b characters, or everything when they overlap.", "quantifier": "every text, every pair of size_t arguments", "why_tests_cant": "size_t wrap-around cases are not enumerated by tests.", "anchors": ["include/YY/Base/Strings/String.h: Remove, Slice, Substring", "include/YY/Base/Strings/StringView.h: Slice, Substring"]}
{"id": "C14", "title": "IndexOf / LastIndexOf return the first / last occurrence", "statement": "Searching a view for a character, a substring or any of a set of characters returns the smallest (largest) index where it occurs, and the invalid index exactly when it does not occur (a search for the empty string reports no match).", "quantifier": "every haystack, needle, start index and count", "why_tests_cant": "First-occurrence claims quantify over all positions of all strings.", "anchors": ["include/YY/Base/Strings/StringView.h: IndexOf, LastIndexOf, IndexOfAny, LastIndexOfAny", "include/YY/Base/Containers/Span.h: IndexOf, LastIndexOf"]}
{"id": "C15", "title": "Splitting by a separator loses nothing", "statement": "Repeatedly calling SplitAndTakeFirst and joining the pieces with the separator gives back the original view; each piece contains no separator; the loop terminates.", "quantifier": "every text and every separator", "why_tests_cant": "Universally quantified over strings; involves a loop.", "anchors": ["include/YY/Base/Strings/StringView.h: SplitAndTakeFirst", "include/YY/Base/Containers/Span.h: SplitAndTakeFirst"]}
{"id": "C16", "title": "Appending or assigning a string to itself is safe", "statement": "s += s doubles the text and s = s.GetConstString() (or any part of s) assigns that part, whatever the capacity and sharing state of s.", "quantifier": "every text, capacity and sharing state", "why_tests_cant": "Needs the reallocation path with an aliasing source; a use-after-free may go unnoticed in a test.", "anchors": ["include/YY/Base/Strings/String.h: AppendString, SetString"]}
{"id": "C17", "title": "String comparison is a consistent total order and reads only its operands", "statement": "Compare of two views is negative/zero/positive exactly as in lexicographic order of code units, == is equality, CompareI is the same after ASCII upper-casing, and comparison with a C string never reads beyond its terminator.", "quantifier": "every pair of texts including ones containing NUL characters", "why_tests_cant": "Transitivity and out-of-bounds reads quantify over all strings.", "anchors": ["include/YY/Base/Strings/StringView.h: Compare, CompareI, operator=="]}
{"id": "C18", "title": "Array behaves as a sequence for trivially copyable elements", "statement": "Add, Insert, Remove, SetItem, Resize, Clear, Add(range) on an Array of trivially copyable elements have exactly the effect of the list operations of the same name, with out-of-range indices reported and the array unchanged.", "quantifier": "every array content, index, count and operation history", "why_tests_cant": "Unbounded histories and sizes (crossing every capacity boundary).", "anchors": ["include/YY/Base/Containers/Array.h: Array, SharedData", "include/YY/Base/Containers/ConstructorPolicy.h: Move"]}
{"id": "C19", "title": "Array behaves as a sequence for non-trivially copyable elements", "statement": "Insert and Remove on an Array of elements with their own copy/move semantics shift the other elements without losing or duplicating any.", "quantifier": "every array content and index", "why_tests_cant": "Overlap direction errors only show for certain lengths and element types.", "anchors": ["include/YY/Base/Containers/ConstructorPolicy.h: Move", "include/YY/Base/Containers/Array.h: Insert, Remove"]}
{"id": "C20", "title": "Copy-on-write arrays are independent and never leak or double free", "statement": "Handles that share storage after a copy never observe each other's modifications; storage is freed exactly when the last handle is gone; a locked array is never shared or silently reallocated.", "quantifier": "every history over any number of handles with locks", "why_tests_cant": "Histories are unbounded; aliasing depends on reference counts.", "anchors": ["include/YY/Base/Containers/Array.h: SharedData::AddRef, Release, Lock, Unlock, Attach, Detach"]}
{"id": "C22", "title": "Doubly linked list is a faithful sequence", "statement": "Push, pop, insert, remove and concatenation on the intrusive doubly linked list have the effect of the corresponding operations on a sequence of entries; forward and backward links always agree.", "quantifier": "every list shape and operation history", "why_tests_cant": "Pointer-structure invariants over unbounded histories.", "anchors": ["include/YY/Base/Containers/DoublyLinkedList.h: DoublyLinkedList"]}
{"id": "C23", "title": "Singly linked list is a faithful FIFO", "statement": "Entries are popped in the order they were pushed; concatenating another list appends its entries in order and empties it.", "quantifier": "every operation history", "why_tests_cant": "Unbounded histories.", "anchors": ["include/YY/Base/Containers/SingleLinkedList.h: SingleLinkedList"]}
{"id": "C24", "title": "BitMap agrees with a set of indices", "statement": "GetItem reports membership, SetItem changes exactly one index and returns its previous state, emptiness means no index is set, and Find(i) returns the smallest set index >= i or -1.", "quantifier": "every bit pattern, every index, every BitMap size", "why_tests_cant": "2^128 bit patterns; word-boundary errors appear at particular indices.", "anchors": ["include/YY/Base/Containers/BitMap.h: BitMap"]}
{"id": "C25", "title": "HashSet is a set", "statement": "After any history of Insert and Remove, a key is reported present exactly when its last successful operation was an insertion; Insert of a present key and Remove of an absent one report 'no change'.", "quantifier": "every history, every hash function (including all-colliding ones)", "why_tests_cant": "Collision patterns are unbounded.", "anchors": ["include/YY/Base/Containers/HashSet.h: HashSet"]}
{"id": "C26", "title": "Optional constructs and destroys its value exactly once", "statement": "In every history of Optional operations the number of constructed values minus destroyed values equals the number of Optionals that report a value, a value is never read after its destruction, and copies/moves carry the value.", "quantifier": "every history over any number of Optionals", "why_tests_cant": "Lifetime balance over unbounded histories.", "anchors": ["include/YY/Base/Containers/Optional.h: Optional"]}
{"id": "C27", "title": "Span equality and inequality are complementary", "statement": "Two spans compare equal exactly when they have the same elements in order, and != is the negation of ==.", "quantifier": "every pair of spans", "why_tests_cant": "Tests compare a few spans; the failing pairs need a coincidence of one equal position.", "anchors": ["include/YY/Base/Containers/Span.h: operator==, operator!="]}
{"id": "C28", "title": "Reference counting destroys an object exactly once, under any thread schedule", "statement": "For every interleaving of copying, releasing and weak-to-strong upgrading by any number of threads that each only use references they hold: the object is destroyed exactly once, exactly when its last strong reference is gone; its memory is freed exactly once, after destruction and after the last weak reference is gone; and a successful upgrade always yields a live object.", "quantifier": "every number of threads and every interleaving of atomic steps", "why_tests_cant": "Schedules are unbounded; races are not reproducible in unit tests.", "anchors": ["include/YY/Base/Memory/RefPtr.h: RefPtr", "include/YY/Base/Memory/WeakPtr.h: RefValue, WeakPtr"]}
{"id": "C29", "title": "ObserverPtr reports its target or null", "statement": "An ObserverPtr obtained by construction, copy or assignment from an observed object returns that object while it is alive and reports expiry after it was destroyed.", "quantifier": "every history of creating, assigning, resetting observers and destroying objects", "why_tests_cant": "Histories unbounded; stale raw pointers may look valid.", "anchors": ["include/YY/Base/Memory/ObserverPtr.h: ObserverPtr, ObserverPtrFactory"]}
{"id": "C30", "title": "UniquePtr owns exclusively", "statement": "Across any history of moves, resets, detaches and destruction each object is owned by at most one UniquePtr and deleted exactly once unless detached.", "quantifier": "every history over any number of UniquePtrs", "why_tests_cant": "Unbounded histories.", "anchors": ["include/YY/Base/Memory/UniquePtr.h: UniquePtr"]}
{"id": "C31", "title": "CriticalSection is a re-entrant mutual exclusion lock", "statement": "A thread holding the section may lock it again; the section is held exactly as long as the owner has made more Lock/successful TryLock calls than Unlock calls; two threads never hold it at once; after matching unlocks another thread can acquire it.", "quantifier": "every schedule of lock/unlock calls by any number of threads", "why_tests_cant": "Schedules are unbounded; single-threaded tests cannot observe a lock that is never released.", "anchors": ["src/YY/Base/Sync/CriticalSection.cpp: CriticalSection::Lock, TryLock, Unlock"]}
{"id": "C32", "title": "Single-producer single-consumer queue delivers FIFO without loss", "statement": "Every entry pushed by the producer is popped exactly once by the consumer in push order, under every interleaving of the two threads' steps and every block size.", "quantifier": "every interleaving, every number of pushes/pops, every block size", "why_tests_cant": "A loss needs the consumer to be preempted between two particular reads while the producer fills a whole block.", "anchors": ["include/YY/Base/Sync/InterlockedQueue.h: InterlockedQueue"]}
{"id": "C33", "title": "Lock-free list never loses or duplicates entries", "statement": "With any number of concurrent pushers and one consumer that pops or flushes, each pushed entry is obtained exactly once, entries obtained come in last-in-first-out order of their push points, and no entry is read after it left the list.", "quantifier": "every number of producers and every interleaving of atomic steps", "why_tests_cant": "ABA problems only appear under specific schedules.", "anchors": ["include/YY/Base/Sync/InterlockedSingleLinkedList.h: InterlockedSingleLinkedList"]}
{"id": "C34", "title": "Atomic bit operations change exactly one bit and report its old value", "statement": "BitSet/BitReset on a 32- or 64-bit word set/clear exactly the addressed bit atomically, leave all other bits unchanged, and return the bit's old value.", "quantifier": "every word value, bit index, and interleaving", "why_tests_cant": "2^64 words; platform fallbacks are not covered by tests.", "anchors": ["include/YY/Base/Sync/Interlocked.h: BitSet, BitReset, BitOr, BitAnd, BitXor, Subtract"]}
{"id": "C35", "title": "Waiting for an address to hold a value is sound", "statement": "WaitEqualOnAddress returns true only if the address held the target value at some moment of the call, and with a non-positive timeout it does not block.", "quantifier": "every sequence of values taken by the address and every pattern of wake-ups", "why_tests_cant": "Depends on the interleaving with writers.", "anchors": ["src/YY/Base/Sync/Sync.cpp: WaitEqualOnAddress"]}
{"id": "C36", "title": "64-bit multiply-divide is exact", "statement": "UMulDiv64(a,b,c) returns a*b/c rounded to nearest (half up) modulo 2^64 without intermediate overflow; the fast variants agree with the exact quotient rounded to nearest when their documented multiple relation holds.", "quantifier": "all 64-bit a, b, c (c nonzero)", "why_tests_cant": "2^192 inputs; portable 128-bit division has wrong corner cases.", "anchors": ["include/YY/Base/Utils/MathUtils.h: UMulDiv64, UMulDiv64Fast, MulDiv64Fast"]}
{"id": "C37", "title": "Time spans and tick counts convert and compare consistently", "statement": "TimeSpan conversions to larger units truncate and are inverse to construction from whole units; comparison operators form the usual total order; adding then subtracting the same span restores the instant.", "quantifier": "all 64-bit tick values", "why_tests_cant": "2^64 values and both signs.", "anchors": ["include/YY/Base/Time/TimeSpan.h: TimeSpan", "include/YY/Base/Time/TickCount.h: TickCount"]}
{"id": "C38", "title": "UTC time and Unix timestamps round trip", "statement": "FromUnixTimestamp(t).ToUnixTimestamp() = t for every non-negative representable t, ToUnixTimestamp truncates to whole seconds and is monotone; times before 1970 or out of range report -1.", "quantifier": "all 64-bit values", "why_tests_cant": "2^64 values.", "anchors": ["include/YY/Base/Time/DataTime.h: UtcDataTime::FromUnixTimestamp, ToUnixTimestamp"]}
{"id": "C39", "title": "Version numbers order lexicographically", "statement": "Comparison of packed versions equals lexicographic comparison of (major, minor, build, revision), and all six comparison operators are consistent.", "quantifier": "all pairs of versions", "why_tests_cant": "2^128 pairs.", "anchors": ["include/YY/Base/Utils/Version.h: Version"]}
{"id": "C40", "title": "Timers never fire early", "statement": "A timer set on a thread task runner is never dispatched by timer processing before its expiry time (in milliseconds), for every history of setting timers and processing at increasing times.", "quantifier": "every history of SetTimer/process steps with arbitrary non-decreasing times", "why_tests_cant": "Depends on wheel positions modulo 128*64*64 ticks; tests cover a few offsets.", "anchors": ["src/YY/Base/Threading/ThreadTaskRunnerTimerManger.h: SetTimerInternal, ProcessingTimerTasks, FetchTimingWheel1/2/3"]}
{"id": "C41", "title": "Timers fire on time", "statement": "Once processing has run at a time at least one wheel tick (8 ms) after a timer's expiry, that timer has been dispatched.", "quantifier": "every history of SetTimer/process steps", "why_tests_cant": "A missed cascade needs a jump that starts in the last slot of a wheel; the resulting delay is over an hour.", "anchors": ["src/YY/Base/Threading/ThreadTaskRunnerTimerManger.h: ProcessingTimerTasks, FetchTimingWheel1/2/3"]}
{"id": "C42", "title": "The runner never oversleeps a timer", "statement": "The wake-up time computed before sleeping is never later than the time at which the earliest pending timer must be dispatched.", "quantifier": "every reachable set of pending timers and every base time", "why_tests_cant": "Depends on which wheels are empty and on long (over 70 minutes) timers.", "anchors": ["src/YY/Base/Threading/ThreadTaskRunnerTimerManger.h: GetMinimumWakeupTickCount"]}
{"id": "C43", "title": "No timer is lost or dispatched twice", "statement": "Every timer handed to the timing wheel is at every moment either pending in exactly one place or has been dispatched exactly once.", "quantifier": "every history of SetTimer/process steps", "why_tests_cant": "Conservation law over unbounded histories.", "anchors": ["src/YY/Base/Threading/ThreadTaskRunnerTimerManger.h: SetTimerInternal, ProcessingTimerTasks"]}
{"id": "C44", "title": "Sequenced task runner executes one task at a time in posting order", "statement": "Tasks accepted by a sequenced runner are executed in the order they entered its queue and no two of them overlap, under every schedule of posters and pool threads.", "quantifier": "every number of posting threads and every interleaving", "why_tests_cant": "Schedules unbounded.", "anchors": ["src/YY/Base/Threading/SequencedTaskRunnerImpl.cpp: PostTaskInternal, ExecuteTaskRunner"]}
{"id": "C45", "title": "Sequenced task runner never forgets an accepted task", "statement": "Whenever a sequenced runner (not stopped, still referenced) has an accepted but unexecuted task, some pool thread is scheduled or running for it, so the task will be executed.", "quantifier": "every interleaving of posters and the executor", "why_tests_cant": "A lost wake-up needs the executor to look at the queue between two steps of a poster.", "anchors": ["src/YY/Base/Threading/SequencedTaskRunnerImpl.cpp: PostTaskInternal, ExecuteTaskRunner"]}
{"id": "C46", "title": "Parallel task runner respects its maximum parallelism", "statement": "At no time are more than the configured maximum number of tasks of one parallel runner executing concurrently.", "quantifier": "every maximum, every number of posters, every interleaving", "why_tests_cant": "Schedules unbounded.", "anchors": ["src/YY/Base/Threading/ParallelTaskRunnerImpl.hpp: PostTaskInternal, ExecuteTaskRunner, SubtractWakeupOnce"]}
{"id": "C47", "title": "Thread task runner never sleeps on a non-empty queue", "statement": "Whenever a posted task is queued, the runner's thread is running or has a wake-up message pending, and when it decides to pop a task the queue is not empty.", "quantifier": "every number of posters and every interleaving with the loop", "why_tests_cant": "Lost wake-ups are schedule dependent.", "anchors": ["src/YY/Base/Threading/ThreadTaskRunnerImpl.cpp: PostTaskInternal, RunUIMessageLoop, RunBackgroundLoop"]}
{"id": "C48", "title": "Stopped runners reject tasks and Join reports completion truthfully", "statement": "After Join or Interrupt has stopped a runner, later posts are rejected; Join returns success only when no accepted task is still queued or running.", "quantifier": "every interleaving of posts, join, interrupt and execution", "why_tests_cant": "Schedule dependent.", "anchors": ["src/YY/Base/Threading/SequencedTaskRunnerImpl.cpp: Join, Interrupt, operator(), CleanupTaskQueue"]}
{"id": "C49", "title": "An asynchronous operation completes at most once and notifies each handler exactly once", "statement": "Under every interleaving of resolve, cancel, fail and handler registration, exactly one completion wins, its status never changes afterwards, each successfully registered (and not removed) handler is invoked exactly once after completion, and registration fails only after completion.", "quantifier": "every interleaving of any number of threads", "why_tests_cant": "Schedules unbounded.", "anchors": ["include/YY/Base/Threading/Async.h: AsyncInfo, AsyncOperation, AsyncOperationImpl"]}
{"id": "C50", "title": "A continuation sees the result or error of its antecedent", "statement": "A continuation attached by Then runs with the antecedent's value, or completes with the antecedent's error code, whichever moment it is attached.", "quantifier": "every interleaving of completion and attachment", "why_tests_cant": "The wrong error code needs attachment between two steps of the completing thread.", "anchors": ["include/YY/Base/Threading/Task.h: Task::Then, TaskContinueAsyncOperation::OnCompleted", "include/YY/Base/Threading/Async.h: SetExceptionPtr"]}
{"id": "C51", "title": "WhenAll completes after all tasks with the first error", "statement": "WhenAll completes exactly when all given tasks have completed; its result is success iff all succeeded, otherwise the error of the first failing task in argument order.", "quantifier": "every number of tasks, every outcome vector and completion order", "why_tests_cant": "n! completion orders times outcomes.", "anchors": ["include/YY/Base/Threading/Task.h: WhenAll"]}
{"id": "C52", "title": "WhenAny completes with a completed task", "statement": "WhenAny completes exactly once, as soon as one of the given tasks has completed, with the index of a completed task, and releases its bookkeeping afterwards.", "quantifier": "every number of tasks and every completion order", "why_tests_cant": "n! orders, plus tasks already complete at the call.", "anchors": ["include/YY/Base/Threading/Task.h: WhenAny"]}
{"id": "C53", "title": "Cancellation callbacks fire exactly once", "statement": "Cancel returns true exactly once; each callback registered before cancellation and not unregistered is invoked exactly once in registration order; registration after cancellation is refused.", "quantifier": "every history of Register, Unregister, Cancel", "why_tests_cant": "Unbounded histories.", "anchors": ["include/YY/Base/Threading/CancellationToken.h: CancellationTokenSource", "include/YY/Base/Functional/Delegate.h: Delegate"]}
{"id": "C54", "title": "Wait registrations stay paired with their handles", "statement": "At all times the i-th registered handle is paired with the wait that was registered for it; removing one registration leaves the others intact; at most 63 handles are registered and none twice.", "quantifier": "every history of registering, replacing, removing and completing waits", "why_tests_cant": "Swap-removal and replacement interactions over unbounded histories.", "anchors": ["src/YY/Base/Threading/ThreadTaskRunnerWaitManger.h: SetWaitInternal, RemoveWaitHandleByIndex, ProcessingWaitTask"]}
{"id": "C55", "title": "Path decomposition is consistent", "statement": "GetPathRoot returns a prefix; GetFileName returns the part after the last separator outside the root; GetDirectoryPath followed by a separator and the file name reproduces the path; GetExtension plus GetFileNameWithoutExtension reproduces the file name.", "quantifier": "every path string", "why_tests_cant": "All strings; root/UNC/volume prefixes interact with separators.", "anchors": ["src/YY/Base/IO/Path.cpp: GetPathRoot, RemoveFileSpec, GetFileName, GetExtension, GetFileNameWithoutExtension"]}
{"id": "C56", "title": "Path append never yields a path outside the intended form", "statement": "Append(p, q) yields q when q is absolute, otherwise p and q joined by exactly one separator; GetFullPath of a drive-relative path uses the current directory only when it is on the same volume.", "quantifier": "every pair of strings", "why_tests_cant": "All strings; volume comparison result polarity.", "anchors": ["src/YY/Base/IO/Path.cpp: Append, GetFullPath, IsSameVolume"]}
{"id": "C57", "title": "Delegate handler list is a faithful registry", "statement": "AddHandler registers a handler at most once, RemoveHandler removes exactly a registered handler and reports whether it was registered, Invoke calls each registered handler once in registration order.", "quantifier": "every history of add/remove/invoke", "why_tests_cant": "Needs histories in which a handler is the only element.", "anchors": ["include/YY/Base/Functional/Delegate.h: Delegate"]}
{"id": "C58", "title": "NString encoding changes keep text and memory safe", "statement": "Changing an NString's encoding keeps its text, affects only that handle, and never lets its recorded capacity exceed its storage.", "quantifier": "every text, encoding pair and sharing state", "why_tests_cant": "The failing cases are empty-but-allocated or shared strings.", "anchors": ["include/YY/Base/Strings/NString.h: SetEncoding, ClearAndUpdateEncoding"]}
{"id": "C59", "title": "A failed conversion leaves the destination's text as it was", "statement": "When an encoding conversion reports that memory ran out, the destination string still holds a text that starts with its previous contents.", "quantifier": "every input, every previous destination content, every allocation at which memory can run out", "why_tests_cant": "Needs allocation failure at every possible growth step.", "anchors": ["src/YY/Base/Strings/StringTransform.cpp: all Transform loops (E_OUTOFMEMORY paths)"]}
{"id": "C60", "title": "Reference counted handles keep the count exact over any history", "statement": "After any sequence of copying, moving, assigning, attaching, detaching and resetting RefPtr and WeakPtr handles, an object's strong count equals the number of references held by handles and raw owners, an object is destroyed exactly when that number becomes zero, and its memory is released exactly when no weak handle is left either.", "quantifier": "every history of handle operations on any number of objects and handles, including self assignment", "why_tests_cant": "Leaks and double releases depend on the order of operations in unbounded histories.", "anchors": ["include/YY/Base/Memory/RefPtr.h: RefPtr", "include/YY/Base/Memory/WeakPtr.h: WeakPtr"]}
{"id": "C61", "title": "StartsWith, EndsWith and Contains are exact", "statement": "StartsWith/EndsWith hold exactly when the argument is a prefix/suffix of the text, Contains exactly when the character or (non-empty) substring occurs, ContainsAny exactly when a character of the set occurs.", "quantifier": "every text and argument", "why_tests_cant": "Universally quantified over strings; boundaries of the length comparison.", "anchors": ["include/YY/Base/Strings/StringView.h: StartsWith, EndsWith, Contains, ContainsAny", "include/YY/Base/Containers/Span.h: StartsWith, EndsWith, Contains"]}
{"id": "C62", "title": "Tick counts move by real time", "statement": "Adding a TimeSpan (positive or negative) to a TickCount moves it by that duration at the performance counter frequency, rounded to the nearest tick; the difference of two tick counts is their distance in 100 ns units, rounded to nearest, and is antisymmetric.", "quantifier": "every frequency, tick count and time span", "why_tests_cant": "Tests run with the one frequency of the test machine.", "anchors": ["include/YY/Base/Time/TickCount.h: operator+=, operator-=, operator-", "include/YY/Base/Utils/MathUtils.h: UMulDiv64Fast"]}
{"id": "C63", "title": "The parallel runner's queue has one producer and one consumer at a time", "statement": "At no time are two threads inside Push, or two threads inside Pop, of the single-producer single-consumer queue of one parallel runner.", "quantifier": "every number of posters and executors, every interleaving with stop, interrupt and clean-up", "why_tests_cant": "Races are schedule dependent.", "anchors": ["src/YY/Base/Threading/ParallelTaskRunnerImpl.hpp: PostTaskInternal, PopTask, CleanupTaskQueue", "include/YY/Base/Sync/InterlockedQueue.h: Push, Pop"]}
{"id": "C64", "title": "Parallel runner: no accepted task waits without an executor", "statement": "While a parallel runner is neither stopped nor released it has as many executors (running, promised by the pool or about to be requested) as unfinished tasks, up to the maximum.", "quantifier": "every maximum, every number of posters, every interleaving", "why_tests_cant": "Lost wake-ups are schedule dependent.", "anchors": ["src/YY/Base/Threading/ParallelTaskRunnerImpl.hpp: PostTaskInternal, ExecuteTaskRunner, SubtractWakeupOnce"]}
{"id": "C65", "title": "Thread runner: tasks start in queue order, exactly once, with one producer at a time", "statement": "Until a thread task runner is terminated, its tasks are started in the order in which they were pushed, each once, no queued task disappears, and at most one thread at a time is inside Push. The loop returns only when the runner was interrupted or nobody refers to it any more, or on WM_QUIT, not because no new tasks are accepted. After Interrupt at most one more task is started, and none unless the thread had already made its test before Pop.", "quantifier": "every number of posters, every nesting of message loops, every interleaving", "why_tests_cant": "Order and exclusion depend on the schedule and the nesting.", "anchors": ["src/YY/Base/Threading/ThreadTaskRunnerImpl.cpp: PostTaskInternal, RunUIMessageLoop, RunBackgroundLoop, RunTaskRunnerLoop", "include/YY/Base/Sync/InterlockedQueue.h: Push, Pop"]}
{"id": "C66", "title": "SendTask runs the callback once and returns when it is over", "statement": "SendTask called from outside the runner returns success exactly if the callback ran once to its end, the cancelled code exactly if it threw the cancellation or was never started, an error from the post exactly if it was never queued; the callback never runs after SendTask has returned; the caller never waits for a wake-up that already happened; nobody uses the work entry after the call has returned.", "quantifier": "every number of concurrent calls, every interleaving with the runner's execution, clean-up and stop, including early returns of WaitOnAddress", "why_tests_cant": "A use of the caller's stack frame after return, and a spurious wake-up, depend on the schedule and the operating system.", "anchors": ["src/YY/Base/Threading/TaskRunner.cpp: SendTask, TaskEntry::WaitTask, TaskEntry::Wakeup, TaskEntry::RunTask"]}
{"id": "C67", "title": "A timer on the thread pool lives exactly as long as it is referred to", "statement": "The reference counter of a Timer served by the thread pool is the number of its owners (users, armed system timers, callbacks, queued or running tasks); nobody uses it after its destruction; no system timer handle is lost; the timer is never armed or queued twice at the same time; a cancelled timer is not queued or armed again.", "quantifier": "every number of users, every interleaving of cancel, firing, dispatch, rearming", "why_tests_cant": "The window between taking the handle and deleting the system timer is a few instructions wide.", "anchors": ["src/YY/Base/Threading/TaskRunner.cpp: Timer::Cancel, Timer::RunTask, SetTimerInternal", "src/YY/Base/Threading/TaskRunnerDispatchImpl.cpp: SetTimerInternal", "src/YY/Base/Threading/TaskRunnerDispatchImpl.h: DispatchTask"]}
{"id": "C68", "title": "Asynchronous file operations: references, results, buffer", "statement": "The operation object of ReadAsync/WriteAsync/ConnectAsync is destroyed exactly when the initiating thread, the system, the completion callback and all users are through with it; the stored status and byte count are the system's; every operation reaches a final status; when the task is over the system no longer writes into the buffer; ConnectAsync reports success exactly for a good connection.", "quantifier": "every outcome of the request, every interleaving of initiating thread, system, callback, cancellation and users", "why_tests_cant": "Whether a request completes at once, and when the packet arrives, is up to the system.", "anchors": ["src/YY/Base/IO/File.cpp: ReadAsync, WriteAsync, ConnectAsync", "include/YY/Base/IO/File.h: AsyncFile, AsyncPipe::Open", "include/YY/Base/Threading/Async.h: IoAsyncOperation::Resolve", "src/YY/Base/Threading/TaskRunnerDispatchImpl.cpp: BindIO"]}
{"id": "C69", "title": "Proxy runner of a foreign message loop: order, once, no lost wake-up, stop", "statement": "Tasks posted to the proxy runner of a thread with its own message loop are started in push order, each once; at most one thread pushes at a time; the internal counts never lead to a pop from an empty queue; while a counted task waits and the thread is in foreign code a wake-up message is pending or about to be sent; after a stop every accepted task is run or cancelled and Join returns.", "quantifier": "every number of posters, every nesting of message loops inside tasks, both orders of evaluation at line 167, every interleaving with Join and Interrupt", "why_tests_cant": "Lost wake-ups need a particular nesting and schedule; the runner then stays dead.", "anchors": ["src/YY/Base/Threading/ThreadTaskRunnerProxyImpl.h: PostTaskInternal, Wakeup, ExecuteTaskRunner, TaskRunnerProc, Join, Interrupt, CleanupTaskQueue"]}
{"id": "C70", "title": "Handle wrapper: every handle closed exactly once", "statement": "In a program that gives a raw handle away only if it owns it, the handle wrapper closes every handle it holds exactly once and never a handle that is not open, for every sequence of construction, copy, move, attach, detach, release, assignment and destruction; every open handle has exactly one owner; copies are independent; self assignment is harmless; a failing system call is reported and does not destroy what the target held.", "quantifier": "every sequence of operations, every behaviour of the system's duplicate call, handle values given again after closing, predefined registry keys", "why_tests_cant": "Ownership is a property of all sequences; a double close usually goes unnoticed until the value is given again.", "anchors": ["include/YY/Base/Utils/Handle.h: Handle (113-362), traits (14-107)"]}
{"id": "C71", "title": "A wait on the thread pool: references and registration", "statement": "The strong and weak counters of a WaitAsyncOperation served by the thread pool are exactly the numbers of its owners, so that it is neither used after destruction nor leaked; it is registered with the system at most once at a time; every registration is ended, and none exists after Cancel has returned true.", "quantifier": "every interleaving of users copying, dropping and cancelling, the registering thread, the system firing the wait and its callback, and repeated registration by Wait::RunTask", "why_tests_cant": "The windows are a few instructions wide, and a leaked registration shows no symptom in a test.", "anchors": ["src/YY/Base/Threading/TaskRunnerDispatchImpl.cpp: SetWaitInternal (117-174)", "src/YY/Base/Threading/TaskRunner.cpp: WaitAsyncOperation::Cancel (575-602), SetWaitInternal (384-393), Wait::RunTask (521-553)"]}
{"id": "C72", "title": "Repeating Wait keeps its order and its life", "statement": "A repeating Wait calls its callback with the results of its completions in order, without overlap, never after the callback returned false and at most once after Cancel; until then it is always armed with its handler linked, or on its way to the callback.", "quantifier": "all interleavings of system threads, runner and cancellers, any number of rounds", "why_tests_cant": "The defect needs the runner to run the callback and re-arm the wait between two adjacent statements of the completing thread; a test cannot hit it on demand, nor show that other interleavings are safe.", "anchors": ["src/YY/Base/Threading/TaskRunner.cpp:330-363", "src/YY/Base/Threading/TaskRunner.cpp:509-608", "include/YY/Base/Threading/Async.h:309-324"]}
{"id": "C73", "title": "Arrays with small object optimisation behave as lists and own their memory", "statement": "Array with AllocPolicy::SOO (small buffer inside the object, heap block when it outgrows it) behaves like a list under every sequence of its member functions: a member function has the effect of the list operation or reports a reason (no memory, locked, out of range) and changes nothing, other arrays are untouched; no memory is needed while the elements fit; copy and move give the destination the elements (a moved-from array is empty if it had a heap block and keeps its elements otherwise); every heap block is owned by exactly one array and all are freed with the last array. Sizes in bytes that wrap at 2^64 break it.", "quantifier": "for all element types (trivial or with constructors), element sizes and inside buffer sizes, all sequences of calls on any number of arrays, all allocator answers", "why_tests_cant": "the small and the large form share one union whose form is told by one bit; the claim is about every history of growth, moves and locks with every allocator answer, including sizes near 2^64", "anchors": ["include/YY/Base/Containers/Array.h:602-1051", "include/YY/Base/Containers/Array.h:1053-1424", "include/YY/Base/Containers/ConstructorPolicy.h:20-180"]}
{"id": "C74", "title": "Shared instances created on first use: one published, none leaked or used after release", "statement": "TimeZone::GetCurrentTimeZone and the static tokens of Token.cpp create a shared object on first use and publish it with compare-exchange. Whatever the interleaving of the calling threads: all callers share one instance, a thread that loses the race destroys or closes its own, reference counts equal the number of owners, a published handle never changes and is never closed. The time zone's exit handler may run while another thread is between reading the static and taking its reference; that thread then uses freed memory.", "quantifier": "for all numbers of threads and all interleavings of their steps, including failing system calls and repeated calls", "why_tests_cant": "races between first callers, and with the exit handler, appear in few schedules and tests cannot enumerate them", "anchors": ["src/YY/Base/Time/TimeZone.cpp:11-50", "src/YY/Base/Security/Token.cpp:15-177"]}
{"id": "C75", "title": "A token made from a pointer reports the end of the object and is freed with its last user", "statement": "CancellationToken::FromPtr gives a token whose IsCancellationRequested is true exactly when no strong reference to the object is left; the token and the weak reference it holds are released when the last RefPtr to the token goes, just as a CancellationTokenSource is.", "quantifier": "all histories of creating, copying and dropping RefPtrs to any number of objects, tokens (also tokens for tokens) and sources, one thread", "why_tests_cant": "A test sees the right answer of IsCancellationRequested in every case; that the token is never freed shows only in the reference count, in every history.", "anchors": ["include/YY/Base/Threading/CancellationToken.h:81-102", "include/YY/Base/Threading/CancellationToken.h:133-199", "include/YY/Base/Memory/RefPtr.h:28-113", "include/YY/Base/Memory/RefPtr.h:141-146", "include/YY/Base/Memory/RefPtr.h:276-281", "include/YY/Base/Memory/WeakPtr.h:32-57"]}
{"id": "C76", "title": "LowPrivilegeCreateProcessW restores the thread and makes one process with low rights", "statement": "Whatever the system calls answer, LowPrivilegeCreateProcessW closes the handles it opened, leaves the calling thread with the token it had, makes exactly one process when it succeeds and none when it fails, passes on errors, and a process it makes for a fully elevated caller has the limited token.", "quantifier": "all answers of the system calls, all states of the calling thread (impersonating or not), first and later calls", "why_tests_cant": "The interesting ways through the function need system calls to fail one by one (no winlogon, token calls refused, SetThreadToken refused while restoring), which a test on a healthy machine never sees.", "anchors": ["src/YY/Base/Process/Process.cpp:18-127", "include/YY/Base/Security/ThreadImpersonationScope.h:10-51"]}
{"id": "C77", "title": "Conversions between UTC and local time are exact to the tick", "statement": "ToLocalDataTime and ToUtcDataTime move a time by exactly what the time zone says and keep its ticks below the millisecond; where the zone maps a time there and back, so do they; order is kept where the zone keeps it; times that cannot be converted become the 'no time' value.", "quantifier": "all tick values, all time zones (arbitrary answers of the two system functions, so also clock changes)", "why_tests_cant": "2^64 times and every zone; the wrong results lie at the end of the range and at clock changes.", "anchors": ["src/YY/Base/Time/DataTime.cpp:11-75", "include/YY/Base/Time/DataTime.h:41-44", "include/YY/Base/Time/DataTime.h:193-197", "include/YY/Base/Time/DataTime.h:226-236", "include/YY/Base/Time/DataTime.h:255-289"]}
{"id": "C78", "title": "A coroutine is resumed exactly once per await, on its runner, and its task completes", "statement": "A function that co_awaits tasks continues after each await exactly once, with the value or exception of the awaited task and not before it is there; if it was started on a task runner all of its code executes on that runner; when the body ends its own task is completed exactly once with the body's result. The frame is never resumed after it is freed nor while it already executes.", "quantifier": "all sequences of awaited operations, all interleavings of the coroutine with completing and cancelling threads, all runners including ones that stop or go away at any moment", "why_tests_cant": "The window between the readiness check, the registration and the completion is a few instructions; shutting a runner down between completion and resumption needs exact timing; a task that is never completed only shows as a hang.", "anchors": ["include/YY/Base/Threading/Task.h:112-115", "include/YY/Base/Threading/Task.h:726-909", "include/YY/Base/Threading/Async.h:119-245", "include/YY/Base/Threading/Async.h:282-325"]}
{"id": "C79", "title": "Chains of continuations deliver the right results on the right runners", "statement": "In any graph of tasks built with CreateTask, Then, ThenError and ThenErrorIf, each callback is called at most once and only for its case (value, error, matching exception), on the runner it was attached for; each task ends with its callback's result or the result passed on from its source; without cancellation the results of all tasks are determined by those of the roots; every task whose source is complete completes.", "quantifier": "all finite graphs of tasks, all callbacks, all interleavings of completing threads, runners (which may stop or go away), Cancel calls and cancellation tokens", "why_tests_cant": "Tests try a few chains on runners that stay alive; the wrong thread, the lost closure and the vanished runner depend on when a runner is shut down relative to the completion.", "anchors": ["include/YY/Base/Threading/Task.h:118-207", "include/YY/Base/Threading/Task.h:373-724", "include/YY/Base/Threading/TaskRunner.h:248-302", "include/YY/Base/Threading/Async.h:64-97", "include/YY/Base/Threading/Async.h:119-127"]}
{"id": "C80", "title": "Error codes keep failures failures and casts are exact", "statement": "HRESULT_From_LSTATUS yields a success code exactly for status 0, gives every Win32 error below 65536 its own failing HRESULT and passes HRESULT failures unchanged; the named E_ codes are distinct failures, an exception carries a failure, cancellation is distinguishable; SafeCast succeeds exactly for representable values and stores that value, otherwise touches nothing or throws.", "quantifier": "every 32-bit status, every named code, every input value, every platform", "why_tests_cant": "The claim is about all 2^32 statuses and about platforms the tests are not run on.", "anchors": ["include/YY/Base/ErrorCode.h:13-50", "include/YY/Base/ErrorCode.h:53-82", "include/YY/Base/Exception.h:13-58", "include/YY/Base/SafeCast.h:10-50"]}
{"id": "C81", "title": "Logical processor count is exact, positive and stable", "statement": "BitsCount32/64 equal the number of one bits for every word; GetLogicalProcessorCount is at least 1, equals the number of logical processors of the machine, and every call from every thread returns the same value.", "quantifier": "every word, every machine layout and failure of the system calls, every interleaving of callers", "why_tests_cant": "2^64 words, machines the tests are not run on, and races between first callers.", "anchors": ["src/YY/Base/Threading/ParallelTaskRunnerImpl.hpp:17-54", "src/YY/Base/Threading/ParallelTaskRunnerImpl.hpp:56-127"]}
{"id": "C82", "title": "Raw string functions read only the string and order it consistently", "statement": "GetStringLength is the number of units before the terminator; StringCompare and StringCompareIgnoreAsASCII of terminated strings (null = empty) report the lexicographic order of the (upper-cased) units and read nothing behind a terminator; the counted forms report the order of the first n units and read only these.", "quantifier": "every unit type, every text, every count, memory behind the text arbitrary or unreadable", "why_tests_cant": "Whether memory behind the string is read or influences the result quantifies over all memory contents.", "anchors": ["include/YY/Base/tchar.h:43-94", "include/YY/Base/tchar.h:172-258", "include/YY/Base/tchar.h:269-332", "include/YY/Base/tchar.h:343-397"]}
{"id": "C83", "title": "COM objects follow the QueryInterface rules and count references", "statement": "QueryInterface of a ComObjectImpl succeeds exactly for IUnknown and the declared interfaces, always with the same pointer, of a sub-object that implements the interface; it takes one reference on success and none on failure; the object lives as long as a reference is held and is deleted exactly once.", "quantifier": "every list of bases and chains, every identifier, every interleaving of AddRef, Release and QueryInterface", "why_tests_cant": "The rules are about every declaration a user writes and all interleavings of reference counting.", "anchors": ["include/YY/Base/Utils/ComObjectImpl.h:13-104", "include/YY/Base/Utils/ComObjectImpl.h:126-185"]}
{"id": "C84", "title": "Bound member functions never run on a destroyed object", "statement": "A functor made by Bind from a weak pointer runs the member function only on a living object, which it keeps alive during the call, throws OperationCanceledException exactly if the object is gone, and does not prolong its life otherwise; from an owning pointer it keeps the object alive as long as the functor exists; from an ObserverPtr it never starts on a destroyed object.", "quantifier": "every capture kind, every interleaving of owners, copies, destructions and calls of functors", "why_tests_cant": "The failures need a destruction in the middle of a call, on another thread or by the callback itself; all interleavings matter.", "anchors": ["include/YY/Base/Functional/Bind.h:84-245"]}
{"id": "C85", "title": "Token searches pick the documented token and leave no handle open", "statement": "GetSystemToken publishes the token of the first process of the snapshot that is called winlogon.exe, can be opened and belongs to the caller's session, which is a system token; GetLimitedToken the own or the linked limited token; every handle opened on the way is closed exactly once and none is used after that.", "quantifier": "every list of processes, every answer of the operating system, every outcome of the race to publish", "why_tests_cant": "Handle leaks on the many error paths need an operating system that fails at each of them; the rule which process is chosen is about all snapshots.", "anchors": ["src/YY/Base/Security/Token.cpp:15-212"]}
{"id": "C86", "title": "Versions of the operating system and of files are exact", "statement": "GetOperatingSystemVersion compares with the constants of SystemInfo.h exactly as the running release including its service pack; GetFileVersion yields the four numbers of the version block, or an error and version 0, survives in-page errors and releases the file exactly once.", "quantifier": "every process environment block, every answer of the loader and the file system", "why_tests_cant": "Needs machines of every release and drives that fail in the middle of a call.", "anchors": ["src/YY/Base/Utils/SystemInfo.cpp:15-52", "src/YY/Base/Utils/FileInfo.cpp:17-79", "include/YY/Base/Utils/SystemInfo.h:15-75"]}
{"id": "C87", "title": "Whoever waits for a timer is woken; a cancelled timer does not start", "statement": "A thread in WaitTask of a timer or a delayed task sleeps only while the result is open, and is woken after finitely many steps of the runner when the timer fires, is cancelled, is refused or its runner ends; after Cancel the callback is not started any more; success is reported only if the callback has run to its end.", "quantifier": "every kind of runner, every interleaving of waiters, canceller, runner, system timer and wheel, every number of rounds", "why_tests_cant": "The windows are a few instructions wide and lie between a test of the cancel flag and a store to hr in another function.", "anchors": ["src/YY/Base/Threading/TaskRunner.cpp:41-161", "src/YY/Base/Threading/TaskRunner.cpp:365-382", "src/YY/Base/Threading/TaskRunnerDispatchImpl.cpp:56-115", "src/YY/Base/Threading/TaskRunnerDispatchImpl.h:42-69", "src/YY/Base/Threading/ThreadTaskRunnerImpl.cpp:272-329"]}
{"id": "C88", "title": "The Linux thread pool runs every accepted task exactly once, on at most 500 threads", "statement": "Every task ExecuteTask has accepted with S_OK is started exactly once, a refused one never; the pool comes to rest only when nothing is left to do; there are never more threads than MaxThreadsCount.", "quantifier": "every number of callers, every interleaving with the pool's threads, every failure of malloc and pthread_create, every limit", "why_tests_cant": "Needs 500 busy threads, or three callers inside a few instructions of Pop, or a signal inside the window of a new thread.", "anchors": ["src/YY/Base/Threading/ThreadPool.Linux.cc:15-123", "src/YY/Base/Threading/ThreadPool.Linux.h:22-79", "include/YY/Base/Sync/InterlockedSingleLinkedList.h:92-113"]}
{"id": "C89", "title": "Array::Sort sorts the array it is called on and nothing else", "statement": "After Sort with a comparison function that is a total preorder, the array holds a permutation of its former elements in ascending order; arrays that shared the memory keep theirs; a refusal of memory changes nothing; lock counts are as before.", "quantifier": "all histories of array operations and sorts, all contents, all qsort implementations that meet their contract, all total preorders", "why_tests_cant": "Sharing, locking and the comparison's behaviour multiply; exceptions out of the comparison and non-trivial element types are never exercised.", "anchors": ["include/YY/Base/Containers/Array.h:1315-1329", "include/YY/Base/Containers/Array.h:518-546"]}
{"id": "C90", "title": "Scope guards are undone exactly once, in reverse order, on every way out; locks exclude", "statement": "AutoLock, AutoSharedLock and MakeAutoCleanup undo exactly once per guard, nested properly, on every way out of a block; with any number of threads an exclusively held SRWLock has one holder, none is left held at the end, and programs that take locks in ascending order never deadlock.", "quantifier": "all programs built of guards, branches, loops, returns, exceptions; all numbers of threads, all schedules", "why_tests_cant": "Schedules and ways out are unbounded; a copied guard that runs its callback twice depends on the compiler's library.", "anchors": ["include/YY/Base/Sync/AutoLock.h:13-55", "include/YY/Base/Sync/SRWLock.h:14-91", "include/YY/Base/Utils/AutoCleanup.h:34-64"]}
{"id": "C91", "title": "Memory functions keep contents, zero what they promise and never leak", "statement": "Alloc/AllocAndZero give a block of the requested size (zeroed) or null and change nothing; ReAlloc keeps the old bytes; ReAllocAndZero keeps them and zeroes the rest; New/Delete pair every construction with one destruction and leave no block behind.", "quantifier": "all heaps, sizes, contents and histories of valid calls", "why_tests_cant": "Contents of reallocated blocks differ per platform; leaks on exceptions and deletion through other bases are not observable in a unit test.", "anchors": ["include/YY/Base/Memory/Alloc.h:16-88"]}
{"id": "C92", "title": "Formatting into a String gives exactly the formatted text", "statement": "Format sets a String to the text its format and arguments stand for, and AppendFormat appends that text; the result is zero-terminated, other Strings keep their text, an invalid format or a lack of memory is reported, and the calls never touch memory they do not own.", "quantifier": "every history of String operations and formattings, every format and argument list (values and pointers into the text of other Strings), every answer of the allocator; the exclusions are proved to be undefined for every history as well", "why_tests_cant": "The measured length and the printed length must agree although the buffer is relocated, cloned or unshared in between, and the failing cases depend on how the storage is shared when the call is made; tests format into fresh unshared strings on one platform.", "anchors": ["include/YY/Base/Strings/String.h:51-132", "include/YY/Base/tchar.h:96-171", "include/YY/Base/Strings/String.h:1160-1173"]}
{"id": "C93", "title": "Conversion between code pages and Unicode keeps the text", "statement": "Converting a text to a code page (aString) appends exactly the system's conversion of its UTF-16 form, whichever Unicode form it comes from, or reports an error and leaves the destination as it was; converting from a code page appends the decoded text or reports an error; the buffer is never overrun and the retry loop ends.", "quantifier": "every text, code page, destination content and capacity, every allocator (including failure at any request), every behaviour of the system's conversion functions within their calling convention", "why_tests_cant": "The buffer retry loop, the INT_MAX limits and the failure results of the system calls depend on code pages and sizes that tests do not reach; the loss of text occurs only for code pages or texts on which the system call fails.", "anchors": ["src/YY/Base/Strings/StringTransform.cpp:122-361"]}
{"id": "C94", "title": "The current runner of a thread is the one calling user code", "statement": "Whenever user code (a task, a timer, a wait, a message handler) is called by a runner r on thread t, TaskRunner::GetCurrent() on t returns r, and the typed GetCurrent functions return r exactly if its class derives from the asked class; a thread bound by BindCurrentThread keeps its runner as current while the runner lives (outside the pool), and a FixedThread runner calls user code on one thread only.", "quantifier": "for all runners of every class, threads, interleavings of executors, nested loops, bindings and thread starts", "why_tests_cant": "Needs many threads switching between runners; a stale weak pointer shows only for particular interleavings and nestings.", "anchors": ["src/YY/Base/Threading/TaskRunner.cpp:168-171", "src/YY/Base/Threading/TaskRunner.cpp:266-273", "src/YY/Base/Threading/TaskRunner.cpp:394-508", "src/YY/Base/Threading/SequencedTaskRunnerImpl.cpp:106-156", "src/YY/Base/Threading/ParallelTaskRunnerImpl.hpp:308-362", "src/YY/Base/Threading/ThreadTaskRunnerImpl.cpp:382-432"]}
{"id": "C95", "title": "A parallel runner exists while it is used and is destroyed when it is not", "statement": "No thread touches a destroyed ParallelTaskRunner – users with a reference, threads posting to it, executors of the pool – and when the users have given up their references and nobody is active, the runner is destroyed.", "quantifier": "for all numbers of threads, maxima of parallel tasks, interleavings of posts, executors, refusals of the pool, Join, Interrupt and moments at which references are given up", "why_tests_cant": "The use after destruction is a few instructions after the last Release and the leak has no visible symptom; neither fails an assertion of a test.", "anchors": ["src/YY/Base/Threading/ParallelTaskRunnerImpl.hpp:222-290", "src/YY/Base/Threading/ParallelTaskRunnerImpl.hpp:308-410", "src/YY/Base/Threading/ThreadPool.Windows.h:17-32", "include/YY/Base/Memory/RefPtr.h:45-68"]}
{"id": "C96", "title": "A callback that throws affects only itself", "statement": "A task whose callback throws does not keep the runner from running the other tasks, each once and in order, even if the user catches the exception outside RunUIMessageLoop and runs the loop again; OperationCanceledException is turned into the result ERROR_CANCELLED; whoever waits for the throwing task, or joins the runner, is released.", "quantifier": "for all sequences of posts, cancellations, exceptions, restarts of the loop and Join, at any moment", "why_tests_cant": "Needs an exception at each possible place combined with waiting threads; the lost wake-ups show only as a hang.", "anchors": ["src/YY/Base/Threading/TaskRunner.cpp:80-140", "src/YY/Base/Threading/ThreadTaskRunnerImpl.cpp:33-57", "src/YY/Base/Threading/ThreadTaskRunnerImpl.cpp:72-160", "src/YY/Base/Threading/ThreadTaskRunnerImpl.cpp:272-302", "src/YY/Base/Threading/ThreadTaskRunnerImpl.cpp:409-446"]}
{"id": "C97", "title": "Searching, splitting and trimming encoded text works on characters", "statement": "Searching a string in well-formed encoded text finds exactly the places where its characters occur; splitting by a string gives well-formed pieces that do not contain the separator's characters; trimming and searching sets of characters act on whole characters and leave well-formed text.", "quantifier": "for all texts, all encodings the library has (UTF-8, UTF-16, UTF-32 in both byte orders, ANSI double-byte) and all arguments", "why_tests_cant": "The functions compare units, not characters; whether a match can straddle characters is a fact about all pairs of texts.", "anchors": ["include/YY/Base/Strings/StringView.h:93-754", "include/YY/Base/Strings/StringView.h:756-1475"]}
{"id": "C98", "title": "Compare of encoded text orders by characters", "statement": "Compare of two well-formed texts of one encoding is zero exactly when they have the same characters and otherwise reports the order of the first differing characters; CompareI does so up to the case of ASCII letters.", "quantifier": "for all pairs of well-formed texts of one encoding", "why_tests_cant": "Order preservation of an encoding is a statement about all pairs of characters.", "anchors": ["include/YY/Base/Strings/StringView.h:176-247", "include/YY/Base/Strings/StringView.h:895-969", "include/YY/Base/tchar.h:86-94"]}
{"id": "C99", "title": "An ANSI string keeps the code page its bytes are in", "statement": "The code page recorded in an aString is the one its bytes came with: changes of the text keep it, copies and assignments take over the source's, SetANSIEncoding sets it, whether or not the storage is shared or locked.", "quantifier": "for all histories of operations on any number of strings, all sharing patterns and lock states", "why_tests_cant": "The code page is stored in the shared block; which operation loses it depends on whether another string happens to share the storage.", "anchors": ["include/YY/Base/Strings/String.h:194-223", "include/YY/Base/Strings/String.h:266-538", "include/YY/Base/Strings/String.h:806-851", "include/YY/Base/Strings/String.h:1087-1158"]}
{"id": "C100", "title": "A sleep ends: with the right result, not early, and whoever waits goes on", "statement": "The task returned by TaskRunner::SleepAsync completes once: with S_OK not before the delay is over, with E_UNEXPECTED if the caller has no runner, as cancelled if its token or the task itself is cancelled; a cancelled token or a stopped runner ends it at once, and threads in WaitTask, continuations and coroutines go on when it ends.", "quantifier": "every delay, every token, every runner state, any number of waiting threads, every order of time, cancellation, stopping, firing and waiting", "why_tests_cant": "A test would have to stop the runner between arming and firing, or wait for the absence of an event; tests cancel before the call or let the sleep finish.", "anchors": ["src/YY/Base/Threading/TaskRunner.cpp: SleepAsync, PostDelayTask, SetTimerInternal", "include/YY/Base/Threading/Async.h: IsCanceled, WaitTask, Cancel, Resolve"]}
{"id": "C101", "title": "A delay is the delay asked for, in real time", "statement": "A task posted with a delay runs when the delay is over, less than a millisecond early at most: the deadline is the time of the call plus the delay at every frequency of the performance counter, a pool runner asks the system for the time that is left, a task is posted at once only if nothing is left; a thread that waits for a deadline wakes neither late nor more than a millisecond early; a time limit that is neither empty nor 'for ever' is exact.", "quantifier": "for every counter frequency, every delay, every time of call and of the timer's start", "why_tests_cant": "The counter frequency is a property of the machine, the limits are at 49.7 days and at the ends of the 64-bit range, and real time is not observable in a unit test to the tick.", "anchors": ["src/YY/Base/Threading/TaskRunner.cpp:GetTimeout", "src/YY/Base/Threading/TaskRunner.cpp:TaskRunner::PostDelayTask", "src/YY/Base/Threading/TaskRunner.cpp:TaskRunner::SetTimerInternal", "src/YY/Base/Threading/TaskRunnerDispatchImpl.cpp:TaskRunnerDispatchImpl::SetTimerInternal", "src/YY/Base/Threading/TaskRunnerImpl.cpp:GetWaitTimeSpan", "include/YY/Base/Time/TickCount.h"]}
{"id": "C102", "title": "NString carries text over unchanged whatever the encodings", "statement": "Appending a view of a text in any of the six kinds of encoding (UTF-8, UTF-16/32 in both byte orders, an ANSI code page) to an NString of any encoding adds exactly that text in the NString's own encoding. GetString gives exactly the text of the NString in the encoding of the destination String, replacing what it held. The only other outcome is an out-of-memory error.", "quantifier": "for every pair of encodings, every text, every previous content of the NString or destination, every allocator outcome", "why_tests_cant": "36 encoding pairs times all Unicode texts; a test fixes a few pairs and strings, and the freed storage after a moving conversion usually still shows the right bytes.", "anchors": ["include/YY/Base/Strings/NString.h:572-602", "include/YY/Base/Strings/NString.h:603-757", "include/YY/Base/Strings/NString.h:870-895", "src/YY/Base/Strings/StringTransform.cpp:122-1775"]}
{"id": "C103", "title": "Waiting for a handle on a thread task runner gives a true result in time", "statement": "Every result handed to a wait is true: WAIT_OBJECT_0 or WAIT_ABANDONED only if the system found the wait's own handle signalled or abandoned, WAIT_TIMEOUT only if the wait's time is over (to the millisecond), WAIT_FAILED only if its own handle cannot be waited for; messages, APCs and timers resolve no wait; a handle that cannot be waited for does not block the others; the loop sleeps neither past the earliest time limit nor without effect, and a wait whose time is over is resolved.", "quantifier": "every reachable set of registrations, every answer of the system within its contract, every time, every timer, and whatever the completion handlers do", "why_tests_cant": "The result depends on how the index and the ranges of return values of MsgWaitForMultipleObjectsEx meet up to 63 shifting registrations, on handlers that change them in the middle of a loop, and on the load of the message queue.", "anchors": ["src/YY/Base/Threading/ThreadTaskRunnerWaitManger.h:138-219", "src/YY/Base/Threading/ThreadTaskRunnerImpl.cpp:125-145", "src/YY/Base/Threading/ThreadTaskRunnerImpl.cpp:186-240", "src/YY/Base/Threading/TaskRunnerImpl.cpp:23-41"]}
{"id": "C104", "title": "Waiting for an object ends with the documented result on every kind of runner", "statement": "WaitForObjectAsync and the callback of CreateWait report, on every kind of runner and with any number of handles already waited for, WAIT_OBJECT_0 for a signalled object, WAIT_ABANDONED for an abandoned mutex, WAIT_TIMEOUT when the time limit is reached and WAIT_FAILED when the object cannot be waited for; a null or invalid handle is reported at once.", "quantifier": "every handle, kind of runner, calling thread, number of registered handles, time limit, state of the object, success or failure of the registration", "why_tests_cant": "Which of the three mechanisms (thread, thread pool, immediate check) serves a wait depends on the calling thread, the load and the time left; abandoned mutexes, the 64th handle and refused registrations are hardly ever set up in tests.", "anchors": ["src/YY/Base/Threading/TaskRunner.cpp:218-241", "src/YY/Base/Threading/TaskRunner.cpp:330-393", "src/YY/Base/Threading/TaskRunnerDispatchImpl.cpp:117-174", "src/YY/Base/Threading/ThreadTaskRunnerImpl.cpp:331-358", "include/YY/Base/Threading/TaskRunner.h:335-405"]}
{"id": "C105", "title": "Values and atomic words stand at aligned addresses", "statement": "Every value a user keeps in an Array, a String, an Optional or the result of an asynchronous operation stands at an address that is a multiple of its alignment, and every word the library operates on with atomic instructions (reference counts, locks, flags, handles) stands at a multiple of its size, on 32-bit and 64-bit processors.", "quantifier": "every element type (any size and alignment), every address the allocator may return, every compiler/processor whose pointers have 4 or 8 bytes", "why_tests_cant": "x86 and x64 tolerate most unaligned accesses, so tests pass there; the claim is about all types, addresses and targets, and follows from the layout rules under #pragma pack(4).", "anchors": ["include/YY/Base/YY.h: __YY_PACKING", "include/YY/Base/Containers/Optional.h: oValueBuffer", "include/YY/Base/Containers/Array.h: SharedData, AllocPolicyArraySOOSmallHeader", "include/YY/Base/Strings/String.h: StringData", "include/YY/Base/Threading/Async.h: AsyncOperationImpl", "include/YY/Base/Threading/TaskRunner.h: WaitAsyncOperation", "include/YY/Base/Threading/CancellationToken.h: CancellationTokenSourceImpl", "src/YY/Base/Threading/ThreadTaskRunnerTimerManger.h: oTimingWheel1BitMap"]}
{"id": "C106", "title": "Messages, tasks and the end of a thread runner's loop: order, result and fairness", "statement": "The message loop of a thread task runner takes window messages in the order of their posts and loses none, returns the wParam of the first WM_QUIT and leaves what is behind it, returns ERROR_CANCELLED only when interrupted or released, never sleeps while a message is unread, and neither tasks nor messages nor waits can keep the others (or the end of the loop) waiting for ever.", "quantifier": "all executions of both loops with any arrivals of messages, tasks, signalled handles, interruption and release", "why_tests_cant": "fairness is a statement about endless executions; a test sees a finite prefix under one schedule", "anchors": ["src/YY/Base/Threading/ThreadTaskRunnerImpl.cpp:74-164", "src/YY/Base/Threading/ThreadTaskRunnerImpl.cpp:167-258", "src/YY/Base/Threading/ThreadTaskRunnerImpl.cpp:272-300", "src/YY/Base/Threading/ThreadTaskRunnerImpl.cpp:408-431", "src/YY/Base/Threading/ThreadTaskRunnerImpl.cpp:449-457"]}
{"id": "C107", "title": "Objects that own objects through RefPtr members", "statement": "Objects hold each other through RefPtr members, and releasing the last reference runs the destructor, which releases the members, inside the assignment. Whatever sequence of creations, copies, moves and resets a program runs, no destroyed object is used, each object is destroyed at most once, each count equals the number of holders between operations, everything reachable from a variable is alive, every operation ends, and the only objects that are alive without being reachable are those that hang on a cycle. Such objects are never destroyed later.", "quantifier": "all programs over any number of variables, objects, classes and members; all graphs; every intermediate state of the nested destructors", "why_tests_cant": "a test builds one graph; the order of release and overwrite in Attach matters only for particular graphs and destructors, and the depth of the nesting grows with the data", "anchors": ["include/YY/Base/Memory/RefPtr.h:45-63", "include/YY/Base/Memory/RefPtr.h:170-200", "include/YY/Base/Memory/RefPtr.h:222-248", "include/YY/Base/Memory/RefPtr.h:266-269"]}
{"id": "C108", "title": "Blocks are as large as they record, and appending costs constant time per element", "statement": "Whenever a container (copy-on-write array, array with small object optimisation, string) obtains a block, the block has room for the elements asked for and for the capacity it records, terminator included. The memory asked for is proportional to the memory needed. Any sequence of Add / AppendString calls moves only a constant number of elements per element added, and so does growing with Resize.", "quantifier": "every word size, header size, element size, requested size and old capacity; every sequence of appends of any sizes", "why_tests_cant": "a test tries sizes far below the wrap-around of size_t, and neither wasted memory nor quadratic time makes a test fail", "anchors": ["include/YY/Base/Containers/Array.h:389-452", "include/YY/Base/Containers/Array.h:518-600", "include/YY/Base/Containers/Array.h:800-860", "include/YY/Base/Containers/Array.h:995-1049", "include/YY/Base/Containers/Array.h:1105-1146", "include/YY/Base/Strings/String.h:1108-1159"]}
{"id": "C109", "title": "Life of a sequenced task runner", "statement": "A sequenced runner is destroyed exactly when no user owns it, no job of it waits in the pool and no thread is inside it; no thread, user or job ever touches it afterwards. Every posted task is run or cancelled exactly once by then, a runner given up by its users does a bounded amount of work and is destroyed, and, as the comment in ExecuteTaskRunner says, once the users have released the runner no further queued task is started.", "quantifier": "All interleavings of any number of threads that post, copy and drop references, join, interrupt and execute, with the pool accepting or refusing jobs.", "why_tests_cant": "The reference count, the pool job and the packed word are changed by different threads; a use after destruction or a lost task shows only in rare schedules and no test can enumerate them.", "anchors": ["src/YY/Base/Threading/SequencedTaskRunnerImpl.cpp:23-26", "src/YY/Base/Threading/SequencedTaskRunnerImpl.cpp:62-170", "src/YY/Base/Threading/ThreadPool.Windows.h:34-56", "include/YY/Base/Memory/RefPtr.h:51-63"]}
{"id": "C110", "title": "Task runner ids are unique", "statement": "TaskRunner::GetId is documented to return the unique id of a runner: two runners alive at the same time, constructed by any threads in any order, have different ids, and no id is 0.", "quantifier": "All interleavings of any number of threads constructing and destroying any number of runners.", "why_tests_cant": "A duplicate needs either a race between two constructors or 2^32 constructions; a test can exercise neither systematically.", "anchors": ["src/YY/Base/Threading/TaskRunnerImpl.cpp:17-21", "src/YY/Base/Threading/TaskRunner.cpp:163-166", "include/YY/Base/Threading/TaskRunner.h:229-236"]}
{"id": "C111", "title": "Trees of UniquePtr members are destroyed exactly once", "statement": "For objects that own other objects through UniquePtr members, every program of creations, moves (also out of a member of the object that the assignment destroys) and clears deletes no object twice and touches no freed one; an assignment destroys exactly what the handle owned directly or through members, keeps everything else, always finishes, and nothing leaks unless objects own each other in a circle.", "quantifier": "All classes (number of members), all programs of create/move/clear on variables and members, every intermediate state of the nested destructors.", "why_tests_cant": "The ownership shapes and the nesting depth are unbounded and a double delete shows up only in the particular shape that contains it; tests try a handful of shapes.", "anchors": ["include/YY/Base/Memory/UniquePtr.h:50-84", "include/YY/Base/Memory/UniquePtr.h:116-130"]}
{"id": "C112", "title": "The callback of AsyncRead, AsyncWrite and AsyncConnect is called once with the outcome", "statement": "If AsyncRead, AsyncWrite or AsyncConnect returns ERROR_SUCCESS, the callback is called exactly once, on the caller's task runner, with the final status and the number of bytes of the request; if it returns an error, the callback is never called and the request failed.", "quantifier": "every outcome of the request, every interleaving of the call, the completion, the notification and the end of the caller's runner", "why_tests_cant": "Whether a request ends before the status is looked at, between that and the registration of the continuation, or later, is decided by the device.", "anchors": ["include/YY/Base/IO/File.h: AsyncFile::AsyncRead, AsyncWrite, AsyncPipe::AsyncConnect", "src/YY/Base/IO/File.cpp: FileIoAsyncOperation::GetResult", "include/YY/Base/Threading/Task.h: Task::Then, TaskContinueAsyncOperation::OnCompleted"]}
{"id": "C113", "title": "Timers of a proxy runner wake the thread", "statement": "A timer set on the runner of a thread with a foreign message loop (ThreadTaskRunnerProxyImpl) is dispatched exactly once, and the window's timer (WM_TIMER) that wakes the thread runs whenever a timer waits, for a time no later than the first 8 ms tick after its expiry. It holds for timers set by the thread itself; the code breaks it for timers set by other threads, for timers set in a dialog opened by a callback, and a timer may need twice its time.", "quantifier": "all histories of timers set by the thread and by other threads, cancellations, WM_TIMER and runner messages, callbacks that set timers or open dialogs (any nesting), any times and any number of ticks per millisecond", "why_tests_cant": "Tests set timers from the runner's own thread and accept any delay; whether the window's timer is running after every nesting of callbacks, and whether a timer of another thread is ever woken for, depends on histories that cannot be enumerated.", "anchors": ["src/YY/Base/Threading/ThreadTaskRunnerProxyImpl.h:177-209", "src/YY/Base/Threading/ThreadTaskRunnerProxyImpl.h:296-320", "src/YY/Base/Threading/ThreadTaskRunnerProxyImpl.h:322-361", "src/YY/Base/Threading/ThreadTaskRunnerTimerManger.h:68-448", "src/YY/Base/Threading/TaskRunnerImpl.cpp:23-41"]}
{"id": "C114", "title": "A repeating timer keeps its interval", "statement": "The callback of a timer made by CreateTimer begins at least the interval after the beginning of the previous call (first: after CreateTimer), so n calls take at least n intervals; intervals below a millisecond are refused; no call begins after the callback returned false or the timer was cancelled. The code keeps the interval up to a millisecond in every round only, so a timer of 1 ms may run without a pause.", "quantifier": "every interval, every kind of runner, every duration of callbacks and delay of the runner, the system timer and the timing wheel, any number of rounds", "why_tests_cant": "A test sees a few rounds with one callback duration; the lost millisecond depends on the rest that is left when the callback returns, and shows only below a millisecond.", "anchors": ["src/YY/Base/Threading/TaskRunner.cpp:101-140", "src/YY/Base/Threading/TaskRunner.cpp:310-328", "src/YY/Base/Threading/TaskRunner.cpp:365-382", "src/YY/Base/Threading/ThreadTaskRunnerImpl.cpp:303-329", "src/YY/Base/Threading/TaskRunnerDispatchImpl.cpp:56-115"]}
{"id": "C115", "title": "Views of bytes keep their encoding and stay inside their text", "statement": "Any chain of Slice, Substring, TrimStart/TrimEnd/Trim, SplitAndTakeFirst and Clear applied to a valid StringView<achar_t, ANSI> reads nothing outside the views involved, keeps the run-time encoding of the view, and yields consecutive bytes of the view (Slice arguments that do not wrap around). A view made of a null pointer is empty. Equal views stand for the same text.", "quantifier": "all views, encodings, operands and chains of operations", "why_tests_cant": "tests use literals and short chains; the encoding member is silently defaulted by the constructor when forgotten, and the null and different-encoding cases are only visible for particular inputs", "anchors": ["include/YY/Base/Strings/StringView.h:756-1475", "include/YY/Base/Strings/StringView.h:42-52"]}
{"id": "C116", "title": "NString set from a String object shares or takes its storage", "statement": "Setting an NString from a String object (any of the six encodings) by copying makes the NString a second owner of the same storage with the String's encoding and text; setting it by moving gives it the storage and leaves the String empty in the encoding of its class, or changes nothing if the two already share it. No other String or NString changes, neither operation can fail for lack of memory, and in every such history the reference count of each buffer is the number of its owners, so nothing leaks and nobody has a freed buffer.", "quantifier": "all histories of creating, sharing, destroying, setting, clearing and assigning (two different, unlocked objects), including the SetEncoding calls that C58 does not show to break the memory; all texts, encodings and patterns of allocation failure", "why_tests_cant": "ownership is spread over any number of handles and a wrong count shows up only after a later destruction; no finite set of assignment sequences covers the histories", "anchors": ["include/YY/Base/Strings/NString.h:423-557", "include/YY/Base/Strings/String.h:391-425"]}
{"id": "C117", "title": "The operators of String do their job or throw and change nothing", "statement": "The operators =, += and + of String give the assigned, appended or concatenated text, or throw (for lack of memory, or because the left operand is locked with too small a buffer). When they throw, every String has the text it had before; operator+ never changes its operands, also when the right one points into the left one, and leaks nothing.", "quantifier": "all histories of valid operations, all texts, all answers of the allocator, locked and shared operands", "why_tests_cant": "the exception path depends on the allocation that fails and on who shares the storage; tests do not inject allocation failures into every sharing pattern", "anchors": ["include/YY/Base/Strings/String.h:563-625"]}
