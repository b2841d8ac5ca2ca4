# Formal model of YY.Base (Lean 4)

## Layout

* `properties.jsonl` – the claims (C01, C02, …), stated in terms of the public API.
* `lean/Verif/<Component>/Model.lean` – model of the code that exists, function by function, each
  definition citing file and lines in `/repo`.
* `lean/Verif/<Component>/Lemmas.lean` – helper lemmas (not claims).
* `lean/Verif/<Component>/Props.lean` – small independent specification, the property theorems,
  concrete non-vacuity examples and `#print axioms`.
* `MANIFEST.json` – claim → theorems.
* `seeded/LOG.jsonl` – log of mutation tests of the theorems.

## Conventions

* Naming: `Cxx_…` theorems are the ones listed in the manifest. A theorem ending in `_partial` proves
  the positive part of a claim under an additional precondition (stated beside the full claim); a theorem ending in
  `_fails` proves the *negation* of the claim for the code as it is, by a concrete witness (a defect in the code).
* Undefined behaviour (use after free, out-of-bounds access, null dereference, signed overflow …) is a
  distinct outcome (`none` of a model function, `Outcome.ub`, or a flag in the state), never assumed away.
* `Verif/Oracles.lean` states for the basic memory actions (copying into a buffer, constructing an element, counting a reference, freeing, closing) that
  the model is undefined exactly when the storage or object is gone, too small, or not held (for elements of arrays: of types with constructors; `C75_release`: one direction). The safety
  theorems rest on that notion.
* Concurrency: each atomic access (interlocked operation, lock acquire/release, plain read/write of a
  shared location) is one step of a transition system; theorems quantify over all reachable states,
  i.e. over every interleaving (sequential consistency; weak-memory reorderings are not modelled).
* Memory allocation: unless a model says otherwise allocation succeeds. 

## Trusted base

* The Lean 4.33.0 kernel; the axioms `propext`, `Classical.choice`, `Quot.sound` only
  (every `Props.lean` ends with `#print axioms` for its theorems). No `sorry`, no own axioms,
  no `native_decide`, no `bv_decide`.
* The faithfulness of the hand-written models to the C++ text (comments give the lines).
* C++ semantics as encoded: sequentially consistent atomics, unsigned arithmetic modulo 2^n.

## Plan per property

| id | model | method |
|----|-------|--------|
| C01 | UTF-8 → UTF-16/32 loops over byte lists | induction over scalar sequence; loop step lemma per lead-byte class |
| C02 | UTF-32 → UTF-8 loop + C01 model | arithmetic per length class, induction; negation for the 6-byte form |
| C03 | UTF-16 → UTF-8/32 loops | negation: U+E000; positive part for texts without U+E000 |
| C04 | UTF-32 → UTF-16 loops | LE: negation (truncated surrogates) + BMP part; BE source path: full |
| C05 | LE/BE pairs of loops | simulation by induction; negation for the unswapped '?' |
| C06 | loops with explicit capacity, write = checked | invariant: index < capacity at each write |
| C07 | same loops on arbitrary input | negation witnesses; positive: output of u16→u32 is < 0x110400…, no UB |
| C08 | heap with reference counts, TransformEndian(&&) | negation: destination freed; positive for non-empty destination |
| C09–C11, C16 | heap of reference counted blocks, handles, all String operations | invariant by induction over histories, refinement to independent texts; negations for SetItem/SetANSIEncoding, self append |
| C12–C15, C17 | list functions for view/string algorithms with size_t wrap | spec by dropWhile, first/last occurrence, join |
| C18–C19 | memory move (memmove vs element loop), Array Insert/Remove | list spec; negation for non-trivial elements |
| C20 | heap of reference counted arrays incl. lock counts | invariant by induction |
| C22, C23 | heap of nodes with next/prior, list head | refinement to `List` with a well-linked predicate |
| C24 | bit words + count | refinement to `Nat → Bool`, least element spec |
| C25 | bucket array of chains | refinement to a set, arbitrary hash |
| C26 | Optional state machine with live-object counter | invariant |
| C27 | list comparison loops | negation for `!=`, positive for `==` |
| C28 | n-thread transition system over uRef/uWeakRef, CAS loop of TryAddRef | inductive invariant (counting) |
| C29, C30 | pointer handle state machines | invariant; negation for ObserverPtr assignment |
| C31 | lock state machine | negation; positive part |
| C32 | block queue: sequential refinement; two-thread step model | refinement to FIFO; negation for concurrent Pop on empty block; guarded positive |
| C33 | Treiber stack with node memory, multi producer | invariant/refinement |
| C34 | interlocked operations on BitVec, overload table | all-word theorems, linearizability, hand-over by exchange, claims by compare-exchange, two-word compare-exchange; negation for the portable 64-bit versions and the `int32_t` overloads of `BitReset` |
| C35 | trace model of the wait loop | induction on trace |
| C36 | Nat/BitVec arithmetic | exactness; negation of the portable 128-bit division |
| C37–C39 | integer arithmetic | exactness, order; negations for pre-C++20 operators |
| C40–C43 | timing wheel with unbounded time | invariant over histories; negations for missed cascade/oversleep |
| C44–C48 | transition systems for the runners | inductive invariants; negation for lost wake-up |
| C49–C52 | transition systems for async operations | inductive invariants; negation for early error read |
| C53, C57 | delegate list over C22 model, token source | refinement; negation for sole-handler double add |
| C54 | arrays of handles/waits | invariant; negation for duplicate handle |
| C55, C56 | path functions on lists of characters | list spec; negations |
| C58 | NString encoding change | negation witnesses; positive part |
| C59 | conversion loops with failing growth | invariant: prefix kept |
| C60 | handle histories over counted objects | invariant: count = number of handles |
| C61 | view search functions | prefix/suffix/infix spec |
| C62 | tick arithmetic at any frequency | rounding spec over integers |
| C63-C65 | parallel and thread runner transition systems | counting invariants; witnesses |
| C66 | one SendTask call as transition system, any number of them side by side | invariant; negations |
| C67 | one thread-pool timer with any number of users and system timers | counting invariant; negation |
| C68 | one overlapped operation with system, callback and users | counting invariant; negations |
| C69 | proxy runner as transition system with nested message loops | counting invariants; negations for ever |
| C70 | world of open handles, wrappers and the user; undefined = closing a closed handle | ownership counting invariant; negations |
| C71 | transition system of one pool wait: strong/weak counters, registrations, callback | counting invariant; negations, one for ever |
| C72 | transition system of a repeating `Wait`: notifiers, delegate, queue, runner | counting invariants; negations for ever |
| C73 | Array with small object optimisation: union of small and large form, several objects over one heap, allocator as oracle (`Soo`) | invariant over all call sequences, list specification; concrete histories for wrapping sizes |
| C74 | `TimeZone::GetCurrentTimeZone`, static tokens of `Token.cpp`: threads, static, reference counts, exit handler (`Cache`) | counting invariant over all schedules |
| C75 | `Verif/TokenFrom` | tokens made from a pointer: reports, reference balance, leak of every token |
| C76 | `Verif/LowPriv` | `LowPrivilegeCreateProcessW` and `ThreadImpersonationScope` over arbitrary answers of the system |
| C77 | `Verif/LocalTime` | UTC/local conversions over arbitrary zones |
| C78 | `Verif/Coro` | a coroutine with any number of awaits, completing threads and runners that stop or go away |
| C79 | `Verif/Chain` | graphs of tasks: `CreateTask`, `Then`, `ThenError`, `ThenErrorIf`, with runners that stop or go away |
| C80 | `Verif/ErrCode` | ErrorCode.h, Exception.h, SafeCast.h over mathematical integers with explicit conversions; three platforms |
| C81 | `Verif/CpuCount` | BitsCount32/64 on natural numbers with word-size reduction, GetLogicalProcessorCount with arbitrary answers of the system, callers as threads |
| C82 | `Verif/Tchar` | tchar.h: pointers as the list of readable units, reading beyond it is a distinct outcome; six unit types |
| C83 | `Verif/ComObj` | ComObjectImpl.h: declarations as lists of bases, pointers as sub-object numbers, reference counting as atomic steps of any thread |
| C84 | `Verif/Bind` | Bind.h: one object, functors by capture kind, running calls; owners and functors come and go at any step |
| C85 | `Verif/SysToken` | Token.cpp: the searches as functions of an arbitrary environment with the list of handle events, checked by a monitor |
| C86 | `Verif/FileVer` | SystemInfo.cpp, FileInfo.cpp: fields of the process environment block; calls that succeed, fail, or raise in-page errors |
| C87 | one timer or delayed task with waiters, canceller, runner (three kinds) as transition system | invariants; ranking; negations |
| C88 | thread pool of Linux: callers, threads, stack, queue, signals as transition system | counting invariants; negations for every limit |
| C89 | `Array::Sort` on the array model, qsort by contract | history induction; negations |
| C90 | scope guards as programs with traces, reader/writer locks as transition system | structural induction, invariant, deadlock freedom by lock order |
| C91 | memory functions over a heap of blocks; objects over it | case analysis, history invariant; negations |
| C92 | `Format`/`AppendFormat` over the shared storage | refinement to the rendered text over all histories; universal negations for the empty text, reuse of `va_list`, own argument |
| C93 | code page conversions | total correctness of the retry loop by induction on rounds; refinement through UTF-16; universal negations |
| C94 | current runner of a thread (weak pointer, typed GetCurrent, binding) | invariant over steps of all threads |
| C95 | life of the parallel runner (shared reference of the executors) | counting invariant, witnesses |
| C96 | callbacks that throw (RunTask, message loop left by an exception and restarted) | counting invariant; universal negations |
| C97 | string views of encoded text: search, split, trim by characters | self-synchronisation of the codes; lifted from C12, C14, C15 |
| C98 | string views of encoded text: Compare/CompareI order characters | order preservation of the codes; lifted from C17 |
| C99 | code page of ANSI strings over the heap model of C09-C11 | exact post-state of every operation; universal negation for shared storage |
| C100 | SleepAsync with token, runner and waiters | transition system, invariants; refutations for all states |
| C101 | delays and time limits in real time (TaskRunner.cpp, TaskRunnerDispatchImpl.cpp, TaskRunnerImpl.cpp on top of the tick arithmetic of C62) | division lemmas for all multiples of 10 MHz; universal theorems for the cases where the code is wrong |
| C102 | text appended to or taken out of an NString, all encoding pairs | case analysis over the pairs, on the conversion lemmas of C01–C05 and C93 |
| C103 | every result of a wait on a thread runner is true and in time | loops of `ProcessingWaitTasks` over the C54 manager, handlers as arbitrary events; contract of the system's wait as hypothesis |
| C104 | waiting for an object ends with the documented result | decisions of `WaitForObjectAsync`, `CreateWait`, the runners' and the dispatcher's `SetWaitInternal`, against the documentation |
| C105 | layout of the library's objects under `#pragma pack(4)`: alignment of stored values and of atomic words | layout calculus, exact classification |
| C106 | Message loops of a thread runner: order, WM_QUIT, fairness | step relation with the message queue, invariants, ranking functions, endless counterexamples |
| C107 | Objects owning objects through `RefPtr` members: counts, reachability, leaks, nesting | task stack for the nested destructors, counting invariant, ranking function, cycle by pigeonhole |
| C108 | Sizes of memory requests and cost of growing | arithmetic modulo the word size, potential argument over all append sequences, closed form for `Resize` |
| C109 | life of a sequenced runner: references of users, jobs and executors, destruction, tasks at the end (Sequenced/Life*.lean) | invariant over an interleaving model, measure for termination, concrete counter-execution |
| C110 | ids of task runners (RunnerId) | invariant over an interleaving model; reachability of a collision by induction on 2^32 constructions |
| C111 | trees of `UniquePtr` (UniqueGraph) | invariant over a stack machine of nested destructors, counting owners; deletion refines reachability by induction on the number of live objects |
| C112 | AsyncRead/AsyncWrite/AsyncConnect as a transition system over the stages of the completion | invariants (one call owed or made); negations for hidden failures, timing, stopped and dead runners |
| C113 | Timers of the proxy runner: calls of `SetTimerInternal`/`ExecuteTimerTasks` as a stack, the manager of C40–C43, the window's periodic timer | invariant over the call stack, simulation into the histories of C40–C43, universal refutation for timers of other threads |
| C114 | The rhythm of a repeating timer: `CreateTimer`, `Timer::RunTask`, the `SetTimerInternal` of the runners, with the clock | invariant by induction over histories; universal refutation of the exact interval |
| C115 | views of bytes with a run-time encoding: chains of operations keep the encoding and stay inside; null pointers; equality ignores the encoding | induction on the chain, reuse of the view specifications, witnesses |
| C116 | NString set from String objects by copy or move: shared storage, emptied source, counts equal owners | invariant on the counts over all histories (NStr) |
| C117 | String operators =, +=, +: result or exception, operands kept | refinement to list append over all histories (StrHeap/Operators) |

## Not modelled (globally)

Windows/Linux system calls themselves, exceptions thrown by element constructors, weak memory ordering,
COM objects, file/process/security wrappers, formatting (`AppendFormat`), multi-byte ANSI code pages.

## Findings: where the code does not satisfy a claim

For each of these a theorem (suffix `_fails`, or as named) proves the negation on the model of the code as it is.

* C57 – `Delegate::AddHandler` accepts a handler that is already the sole element of the delegate.
* C24 – the portable 64-bit `BitSet`/`BitReset` use a 32-bit mask.
* C31 – `CriticalSection` is not released correctly (see `CriticalSection/Props.lean`).
* C50 – a continuation attached while a failing or cancelling call is between its compare-exchange on the
  status and the publication of the error sees `E_UNEXPECTED`/no exception.
* C45 – `SequencedTaskRunnerImpl`: the counter is raised before the task is pushed; an executor finishing the previous
  task in that window pops nothing and leaves; the poster saw a non-zero counter and does not schedule. The queue is never served again.
* C02 – UTF-32 values 0x4000000..0x7FFFFFFF do not survive UTF-32 → UTF-8 → UTF-32.
* C03 – U+E000 is treated as a surrogate by every conversion from UTF-16 (`<= 0xE000`) and becomes '?'.
* C04 – UTF-32LE → UTF-16LE casts both surrogates to `char`-sized values: every supplementary character is destroyed.
* C05 – '?' is written unswapped by the conversions UTF-8 → UTF-32BE (truncated tail, broken six byte form) and UTF-32LE → UTF-16BE.
* C07 – two low surrogates combine to 0x110000; a broken lead byte near the end swallows the rest of the text; overlong forms and encoded
  surrogates are accepted.
* C59 – UTF-16 → UTF-8 sets the length of the destination to zero when memory runs out.
* C45 (remark) – an executor of `SequencedTaskRunnerImpl` that saw the counter drop to zero may still be in its exit path while a newly
  scheduled executor already pops: two consumers on a single-consumer queue.
* C12 – `String::TrimEnd` passes `newLength - 1` to `Remove`: "ab  " becomes "a ". Wrong whenever some but not all characters are trimmed.
* C13 – `Slice(a, b)` with `a + b ≥ 2^64`: a view moves before its start, a string keeps text.
* C15 – the `SplitAndTakeFirst` loop cannot distinguish "a," from "a".
* C17 – `char32_t` units from 2^31 on order cyclically; `Compare(const char_t*)` reads past the terminator when the view holds a NUL at that
  place; with signed `char` a shorter view compares greater than its extension by a byte ≥ 0x80.
* C27 – `Span::operator!=` returns true if some position is *equal*.
* C29 – copy and move assignment of `ObserverPtr` copy only the data block, not the pointer: an empty observer stays empty, an observer of `y`
  keeps returning `y` and even returns it after `y` was destroyed; copying an observed object shares its block, so destroying the copy
  expires the observers of the original.
* C34 – the portable 64-bit `BitSet`/`BitReset` shift a 32-bit one: positions from 32 on are undefined and `BitReset` of a low bit also
  clears the upper half; `BitReset(int32_t*)` calls itself for ever; signed `Subtract` of the most negative value overflows.
* C36 – the portable `_udiv128` loses digits for divisors above 2^32 (`UMulDiv64(2^48, 2^48, 2^33)` gives 0); rounding doubles the remainder
  in 64 bits, so divisors above 2^63 round wrongly; `MulDiv64Fast` negates INT64_MIN.
* C37 – `TimeSpan::operator>` before C++20 is `>=`.
* C39 – `Version::operator!=` before C++20 is `>`.
* C62 – `TickCount += span` reinterprets a negative span as unsigned before dividing (frequency below 10 MHz), and for a frequency that is
  neither a divisor nor a multiple of 10 MHz uses the truncated ratio (3579545 Hz: one second becomes 5000000 ticks).
* C25 (remark) – `HashSet::Pop` never frees the entry it takes out; outside Windows `S_FALSE` is 0 like `S_OK`, so "no change" cannot be seen.
* C32 – `InterlockedQueue::Pop` looks at `pNextBlock` only after it found its block empty; if meanwhile the producer fills this block and links the next one, the block is
  deleted with all its unread entries.
* C35 (remark) – when the system's wait times out, `WaitEqualOnAddress` reports false without looking again; a remaining time of 2^32-1 ms or more is
  passed to the system as INFINITE.
* C09, C11 – `StringData::CloneStringData` copies the characters but neither `uSize` nor `eEncoding`: `SetItem`, `SetANSIEncoding` and a user's `LockBuffer`/`UnlockBuffer()`
  on a string that shares its storage return success and leave it empty; every modification of a shared ANSI string resets its code page.
* C10 – `String::Remove` on a shared string ignores a failed `LockBuffer`.
* C16 – `s += s` on an unshared string that must grow copies from memory `realloc` has freed; `s = s.GetConstString()` on an unshared string
  first clears and then copies the block onto itself.
* C08 – `TransformEndian(String&&, String*)` into an empty destination releases the block it has just attached to the destination.
* C40 – a timer more than 2^22 ms (70 minutes) ahead waits in the overflow list; `FetchTimingWheel3` may put it into the slot of wheel 3 (or 2) which
  `FetchTimingWheel2` (or 1) empties right after, and the branch marked `assert(false)` dispatches it, up to 70 minutes early. Expiry is compared in whole milliseconds, so a timer may also be early by less than one.
* C41 – `ProcessingTimerTasks` after 1024..65535 ms from slot 63 of wheel 2 past slot 0 of the next round does not fetch wheel 3 (likewise one level up): the timers of that slot are 70 minutes late.
  A timer that expires in the millisecond of the base goes to the slot before the base and is one round (1 s) late.
* C42 – if only the overflow list is occupied the wake-up time is base + 2^22 ms although a timer may be due earlier. If the base is in the last slot of a wheel the wake-up time may lie in the past
  (the thread then polls without sleeping).
* C55 – `GetFileName` returns the whole path when no separator follows the root (`C:\a`, `/a`); `GetExtension` of such a file may therefore start in the root (`\\srv.net\share\file`).
  `GetFileNameWithoutExtension` returns the extension (`Substring(_uIndex)` instead of `Substring(0, _uIndex)`).
* C56 – `Append` calls `LockBuffer`/`UnlockBuffer`, which empties a string that shares its storage: the path is lost. `IsSameVolume` returns the result of `CompareI` as `bool`, so it answers the
  opposite; `GetFullPath` of `C:foo` uses the current directory exactly when that is on another volume. Outside Windows `IsPathFullyQualified` reads the first character of an empty path.
  A bare `C:` counts as fully qualified.
* C51 – `WhenAll` called between the moment a task's status is set and the moment its error code is published takes the code `E_PENDING` as the error of that task
  (the handler is refused because the status is final, then `GetErrorCode` reads `hr`).
* C52 – `WhenAny` gives handler `i` a reference to the operation before `AddCompletedHandler`; if the task refuses it (already completed), the roll-back starts with `--_iIndex` and never resets the
  reference of the refused handler: the operation keeps itself alive for ever.
* C53 – because `CriticalSection` never releases (C31), `Cancel` on another thread than the one that first registered blocks for ever after it has set `bCancel`, and no callback runs. If a callback
  calls `Register` or `Unregister`, the lock is released while `Cancel` still walks its list. The only registered handler may be registered again and is then called twice (C57).
* C54 – `SetWaitInternal` for a handle that already has a pending wait calls `Cancel` on the old wait, which re-enters `DeleteWaitInternal` and moves the last registration into the slot; then the slot
  (now of another handle, or beyond the count) is overwritten: another handle's wait is lost and its signal is delivered to the new wait, or the new wait is never registered although `S_OK` is returned.
  Time-outs are compared in whole milliseconds: a wait ends when less than 1 ms is left.
* C48 – sequenced runner: an executor that has left its loop reads the flags without the lock. If `Interrupt` is called meanwhile and a second executor already runs a later task, the first one publishes
  `TerminateTaskRunnerRaw` and `Join` returns success although a task is running. A post that has raised the counter but not pushed yet puts its task into the queue of a terminated runner, where it is
  neither run nor cancelled before the destructor. Without `Interrupt` `Join` is truthful.
* C63 – `CleanupTaskQueue` of the parallel runner ends with `Exchange(…, TerminateTaskRunnerRaw)`, which also clears a push lock held by a poster; `PostTaskInternal` checks the stop bit only once
  before its loop, so a second poster can enter `Push` of the single-producer queue at the same time.
* C64 – parallel runner: the counter is raised before the task is pushed; an executor that finds the queue empty in between leaves (and drops `uParallelCurrent` without the `Release` that belongs to
  it); the task then waits until another one is posted.
* C48 – parallel runner: `PostTaskInternal` does not re-check the stop bit, so a post that began before `Join` is accepted and run after `Join` has returned success.
* C47 – thread runner: the loops compare `uPendingTaskCount` with `uTaskRunnerReentryCount - 1`, which presumes that every outer loop is inside a queue task. If a nested loop is started from a window
  message, a timer or a wait callback, then with one queued task the thread goes to sleep on it, and with none it pops from the empty queue for ever (assertion in debug builds).
* C47 – a timer callback that removes messages (modal dialog) swallows the wake-up message of a task posted meanwhile; the loop goes to sleep without looking at the counter again.
* C47 – the comparison at ThreadTaskRunnerImpl.cpp 294 reads `uTaskRunnerReentryCount` unsynchronised and unsequenced with the `Add`; if it is read first, a wake-up can be lost.
* C48 – thread runner: `Join` called while tasks are pending waits for the word to become `TerminateTaskRunnerRaw` (6), but nothing writes that value when the tasks finish (and neither `Join` nor
  `Interrupt` wakes a sleeping thread): it waits until the timeout.
* C48 – thread runner: `CleanupTaskQueue` overwrites the word while a poster may hold the push lock; the poster's `Add(15)` on 6 gives 21: stop bit off, push lock on for ever, task left in the queue.
* C19 – `ConstructorPolicy::Move` (ConstructorPolicy.h 110-142) loops in the wrong direction for overlapping ranges of elements with their own move assignment: `Array<String>{a,b,c,d}.Remove(0)` leaves
  `{d, moved, moved}`, `Insert(0, x)` leaves `{x, moved, moved, a, d}`. Exact condition: `Insert` is right iff at most two elements follow the position, `Remove` of n iff at most n elements follow.
* C18 – `Array::Insert(k, a[j])` on the same unshared array: the elements are shifted before the argument is read (wrong value inserted), and if the array grows the argument points to freed memory; the
  same for `Add(a.GetData(), n)`.
* C20 – assigning an unlocked Array to a locked one: `AddRef` on the source, then `Attach` throws: the reference is never returned and the storage leaks.
* C20 – `SetArray(AllocPolicyArray&&)` is `noexcept` and throws if either array is locked: the program ends.
* C20 – `LockBufferAndSetSize(0)` on an array without storage succeeds without locking (static block); the matching `UnlockBuffer` throws.
* Array – `Remove` shrinks a locked array although `Clear`, `Resize` and `LockBufferAndSetSize` refuse to.
* C58 – `NString::SetEncoding` on an empty NString that owns its buffer rescales `uCapacity` twice (NString.h 861 through `ClearAndUpdateEncoding`, then 182): UTF-32 to UTF-8 records 255 units in 64 bytes,
  and the next `SetString` of 100 bytes overruns the buffer; UTF-8 to UTF-32 divides twice and in a second round wraps the capacity to `SIZE_MAX`.
* C58 – on an empty buffer with exactly one other owner, `ClearAndUpdateEncoding` gives the reference back and `SetEncoding` goes on with the stale pointer (174-186): the other owner's String is relabelled.
* C58 – UTF-16LE↔UTF-16BE, UTF-32LE↔UTF-32BE, and UTF-16LE→UTF-32BE, ANSI→UTF-16BE, ANSI→UTF-32BE of a non-empty NString end in the moving `TransformEndian`, which frees the block it has attached (C08).
* C58 – a failed conversion (no memory) loses the text: it was moved into a local. A change of code page only relabels the bytes, and drops them when the buffer is shared (C09).
* NString – `ClearAndUpdateEncoding(UTF32BE)` of a shared buffer resets to the UTF16BE class (843-845); every caller overwrites the result, so it has no effect today.
* C66 – `SendTask` (TaskRunner.cpp 280-308) puts the work entry on the caller's stack. The executor's `Wakeup` lets the caller return, and only then the executor drops its `RefPtr`: `Release` on a dead local
  variable, in every ordinary call in which the caller wakes up first.
* C66 – `TaskEntry::WaitTask` (49-68) does not look at `hr` again after `WaitOnAddress` returns, which may happen without a change: `SendTask` then returns `E_PENDING` and the callback runs later on a dead frame.
* C67 – `Timer::Cancel` (142-161) takes the handle (146), then calls `DeleteTimerQueueTimer` (154) and takes `TRUE` for "the callback will not be called". If the callback runs completely in between, `TRUE` is
  returned too, and `Release` (156) gives back the reference the callback has already given back. The same shape occurs in `WaitAsyncOperation::Cancel` (575-602).
* C67 – `TaskRunnerDispatchImpl.cpp` 61-70 (replacing an old system timer) is dead code: a timer is never armed twice (`C67_single`).
* C68 – `AsyncFile(AsyncFile&&)` (File.h 60-64) does not copy `bSkipCompletionNotificationOnSuccess` (the assignment at 82 does). Every handle of `AsyncPipe::Open` and every move-constructed one has `false` while
  the handle suppresses packets: a read or write that succeeds at once then keeps the reference cloned for the system for ever.
* C68 – cancelling a pending operation (`Task::Cancel` or the token) makes it `Canceled` at once, although `CancelIoEx` only asks the system to stop; the system may still write into a buffer the caller now believes to be free.
* C68 – `ConnectAsync` reports `ERROR_PIPE_CONNECTED` (a good connection, made before the call) as a failure code.
* C68 – if the system queues a packet for a request that "fails" with a warning (`ERROR_MORE_DATA`), the reference is released twice.
* C69 – `ThreadTaskRunnerProxyImpl::PostTaskInternal` (167) wakes only if the count is below `2 + uTaskRunnerReentryCount`, but the count also contains the tasks of the batch that are finished and not yet subtracted.
  If the second task of a batch shows a dialog (which takes the one pending message), a task posted then is not announced; the dialog does not see it, and afterwards every post finds a count of at least 2 and
  sends no message either: the runner is dead for ever.
* C69 – `Wakeup` (234) refuses after a stop. A post that passed the check at 149 before `Join`/`Interrupt` reports success, but its task is neither run nor cancelled; and if it is pushed while the last batch runs,
  the clean-up condition at 348 is not met and `Join` waits for ever.
* C70 – `Win32RegistryHandleTraits::CloseHandle` (68-74) tests `!RegCloseKey(…)`, but `RegCloseKey` returns 0 on success: success is reported as the last error, failure as `S_OK`.
* C70 – copy assignment of `Handle` (325-329) with a failing `DuplicateHandle` closes the handle of the target and leaves it invalid without any report, also for `a = a`.
* C71 – `WaitAsyncOperation::Cancel` (594-597) takes `TRUE` from `UnregisterWaitEx` for "the callback was not called", but `TRUE` is also returned when the callback is already over: the weak reference is released twice and the memory freed while the user holds a strong reference (same shape as C67).
* C71 – the pool holds only a weak reference; if the `Task` of `WaitForObjectAsync` is dropped, nobody calls `UnregisterWaitEx`: the callback returns at 149 before it. The registration stays for ever.
* C71 – `Cancel` between the test of 386 and the registration of 141 reports success, and the handle is registered afterwards.
* C72 – `NotifyCompletedHandlers` publishes `hr` (Async.h 311) before it takes the handlers (316). A `Wait` that was completed before `InstallCompleted` is posted at once; its callback can run and re-arm the wait in between, and the old notification then takes the new handler and calls it with status `Started`: the `Wait` never runs again (`C72_lost_fails`).
* C72 – `Wait::OnCompleted` (TaskRunner.cpp 509-519) drops `Error`: a failing re-registration ends the `Wait` silently; its own `hr` stays `E_PENDING`, so `WaitTask` on it hangs (`C72_error_fails`).
* C73 – `Array<…, SOO>`: `Realloc` computes `sizeof(_Type) * n` and `LockInternalData` rounds up to 16 without overflow checks. `Reserve(2^60)` of 16 byte elements succeeds with an empty block, `Resize(SIZE_MAX)` writes behind the object. A moved-from array keeps its elements when it was in its small form (and is empty otherwise).
* C74 – `TimeZone::GetCurrentTimeZone` reads the static and then adds a reference without protection: the `atexit` handler may destroy the instance in between, the thread then uses freed memory.
* C75 – `CancellationToken::FromPtr` (CancellationToken.h 78, 101, 124) wraps `new CancellationTokenImpl` (count 1) in `RefPtr(T*)`, which adds a reference; nobody drops the first one. Every such token leaks, with the weak reference or `ObserverData` it holds (`C75_leak_fails`). `RefPtr::FromPtr`, as in line 198, would be right.
* C75 – objects made by `new` (tokens, sources, 198) are released by `Free`, i.e. `free` (RefPtr.h 83): `C75_mismatch_fails`. The other way round `ObserverData` comes from `New` (`malloc`) and ends with `delete this` (ObserverPtr.h 53-62, 95).
* C76 – `LowPrivilegeCreateProcessW` does not look at `GetImpersonationStatus()` (Process.cpp 61-65): when the thread cannot impersonate, `RtlAdjustPrivilege(…, CurrentThread = TRUE)` switches two privileges on in the caller's own thread token and leaves them on (`C76_privileges_fails`).
* C76 – it returns `S_OK` with a fully privileged process when the system token, the limited token or the duplicate is missing, or `CreateProcessAsUserW` says access denied (Process.cpp 56, 68, 82, 104; `C76_low_fails`). A failed elevation query is cached as `Default` for ever (30, 46), which has the same effect.
* C76 – `~ThreadImpersonationScope` ignores a failed `SetThreadToken` (ThreadImpersonationScope.h 38): the thread goes on as SYSTEM (`C76_restore_fails`).
* C77 – the constructors from `SYSTEMTIME` ignore a failed `SystemTimeToFileTime` (DataTime.h 43, 196); `ToLocalDataTime` then adds the rest to `UINT64_MAX` (DataTime.cpp 35) and returns a time in 1601 (`C77_late_fails`).
* C77 – `LocalDataTime::FromUnixTimestamp`/`ToUnixTimestamp` (DataTime.h 226-251) treat the timestamp as local time: through `ToUtcDataTime` it is wrong by the zone's distance (`C77_unix_fails`). The comparison operators ignore `pTimeZone` (`C77_compare_fails`).
* Common.h 9: `kNanosecondsPerMicrosecond` is 1000000 instead of 1000 (used nowhere).
* C78 – `TaskAwaiter::OnCompleted` (Task.h 885-906): if the runner has gone the frame is destroyed in the middle of the body, if `PostTask` fails the closure is dropped and the frame leaks (its result is ignored); in both cases nobody completes the coroutine's own operation, so every waiter on it hangs (`C78_destroyed_fails`, `C78_leak_fails`, for ever: `C78_stuck_fails`). A coroutine started on a thread without a runner moves to the runner of whoever completes the awaited operation (`C78_place_fails`). `WaitTask` does not loop around `WaitOnAddress` (Async.h 160): an early return after the status is set and before the value is written hands out an unwritten value (`C78_result_fails`).
* C79 – `TaskContinueAsyncOperation::OnCompleted` (Task.h 494-495, 539-540) compares the runner it got from the weak pointer with the current one: if the runner is gone and the completing thread has no runner, both are null and the callback is called on that thread (`C79_place_fails`); the intended `SetErrorCode(ERROR_CANCELLED)` (503) only happens on threads with a runner.
* C79 – `TaskErrorAsyncOperation::OnCompleted` (591, 668) takes a runner that is gone for "no runner": the error callback is called on whatever thread completes the source (`C79_error_place_fails`).
* C79 – the result of `PostTask` is ignored in `Then`, `ThenError`, `CreateTask` and `CreateDelayTask` (Task.h 507, 552, 597, 674; TaskRunner.h 262, 293): on a stopped runner the task never completes (`C79_refused_fails`, `C79_lost_fails`).
* C79 – a canceled source turns its `Then` task into an *error* without exception (490): the status is `Error`, and a later `ThenErrorIf<OperationCanceledException>` does not match (`C79_cancel_fails`).
* C80 – outside Windows every error code is positive (ErrorCode.h 25-35) while `FAILED` tests for negative values (19): no error of `Array`, `String`, `StringTransform` is ever noticed by the `FAILED(_hr)` checks (`C80_names_fails`); `E_PENDING`, `E_FAIL`, `E_ABORT`, `E_BOUNDS` … are all 5, so completing a task with one of them leaves it pending (`C80_wakes_fails`); `S_FALSE == S_OK`.
* C80 – with a 64-bit `long` the expression of line 48 is positive: `HRESULT_From_LSTATUS` never returns a failure for a positive status, and `Exception()` / `OperationCanceledException` carry success codes (`C80_failed_fails`). On Windows statuses above 65535 lose their upper bits (`C80_injective_fails`).
* C81 – `GetLogicalProcessorCount` (ParallelTaskRunnerImpl.hpp 84-87) reads only the first record of the buffer; `RelationProcessorPackage` yields one record per package, so on **every** machine with two or more sockets the processors of the others are not counted (`C81_count_fails`) and the parallel runner is limited accordingly.
* C82 – the generic `StringCompare(left, right, count)` (tchar.h 281-284; used for `char16_t` outside Windows and `char32_t` on Windows) leaves its loop with the count exhausted and then compares the units *behind* the texts: every two equal texts followed by different units compare as different, and at the end of a buffer the read is out of bounds (`C82_counted_fails`).
* C82 – `StringCompareIgnoreAsASCII` subtracts `char` values, which are signed with MSVC, while `StringCompare` uses `strcmp`: the two functions order non-ASCII strings differently and a string can sort before its own prefix (`C82_signed_fails`).
* C83 – the reference count of `ComObjectImpl` is a `uint32_t` without overflow check: with 2^32 + 1 references the first `Release` deletes the object (`C83_wrap_fails`). Not a practical threat; recorded as the exact boundary of `C83_life_partial`.
* C83 – base interfaces are only answered if the user spells them out in a `ComObjectInheritChain`; a class that implements `ITextProvider2` denies its base `ITextProvider` otherwise (`C83_unnamed_fails`; documented in ComObjectImpl.h 116-118).
* C84 – `Bind` with `UniquePtr`/`RefPtr`/`shared_ptr` uses the captured pointer without a local copy: a callback that destroys the functor it is called through (for instance by clearing the handler it is stored in) destroys the object while its member function runs (`C84_self_fails`); the `WeakPtr` version, which takes a local `RefPtr`, is not affected. The comment (78, 141) promises that the object is not destroyed during the asynchronous operation.
* C84 – `Bind` with an `ObserverPtr` is described as the safe version, but holds only a plain pointer during the call: an object destroyed during the call leaves a dangling `this` (`C84_observer_fails`).
* C84 – null owning pointers are not checked (`C84_null_fails`), null weak pointers throw.
* C85 – `Token::GetSystemToken` trusts the file name `winlogon.exe` without checking the account: a program of an ordinary user with that name in the same session, earlier in the snapshot, is taken instead, and its token is cached for the life of the process (`C85_system_fails`).
* C86 – `GetFileVersion` returns `HRESULT_From_LSTATUS(GetLastError())` after a failed `VerQueryValueW`, which is not documented to set the error: with a last error of 0 the failure is reported as `S_OK` with version 0 (`C86_silent_fails`). The length reported by `VerQueryValueW` is not tested: a version resource without `VS_FIXEDFILEINFO` leads to an access through a null pointer, which the exception filter lets pass (`C86_empty_fails`). An in-page error between lines 70 and 71 leaves half a version together with the error (`C86_half_fails`).
* C87 – `Cancel` between the test of the cancel flag (TaskRunner.cpp 370, ThreadTaskRunnerImpl.cpp 308, TaskRunnerDispatchImpl.h 49) and the `hr = E_PENDING` at the head of `PostTaskInternal` is lost for waiters: the result is declared open again, `RunTask` (83-84, 103-104) sees the flag and returns without `Wakeup`, and a second `Cancel` does not wake either. Every `WaitTask` then sleeps for ever. `RunTask` should call `Wakeup(ERROR_CANCELLED)` on that path.
* C87 – `SetTimerInternal` of the thread runners posts a closure when called from another thread (ThreadTaskRunnerImpl.cpp 318-324, ThreadTaskRunnerProxyImpl.h 187-193). If the runner ends first, `CleanupTaskQueue` wakes the closure's entry but not the timer: whoever holds the timer and waits for it sleeps until somebody cancels.
* C87 – `ThreadTaskRunnerProxyImpl` never sets `hr` back to `E_PENDING`: after the first round of a repeating timer `WaitTask` returns at once, unlike on the other runners.
* C88 – `ThreadPool::ExecuteTask` (ThreadPool.Linux.cc 17) calls `InterlockedSingleLinkedList::Pop` from every thread, although it is written for one consumer (its line 88). With three callers the stack gets a busy thread back (ABA); the next caller overwrites that thread's `pfnCallback`, and a task accepted with `S_OK` never runs.
* C88 – ThreadPool.Linux.cc 29-37: a caller that saw all 500 threads busy pushes into `oPendingTaskQueue` after the threads have looked into it (97) and gone to sleep. Nobody is woken; the task waits for the next call. `oPendingTaskQueue` is moreover an `InterlockedQueue` for one producer and one consumer, used by many of both.
* C88 – ThreadPool.Linux.cc 107-109: a new thread pushes itself onto the idle stack before it blocks `SIGUSR1`. A caller that pops it in between kills the process (default action). Likewise `pthread_create` may write `hThread` (60) after the thread is already on the stack: `pthread_kill` then gets an indeterminate handle (23).
* C89 – `Array::Sort` (Array.h 1325-1327): a comparison that throws skips `Unlock`; the array stays locked for ever, so that every later `Add`, `Resize` or assignment fails.
* C89 – `Sort` accepts element types that are not trivially copyable; `qsort` then moves objects as bytes (undefined). The cast of the comparison to `int(__cdecl*)(const void*, const void*)` and the call through it are undefined too.
* C89 – Array.h 419: `SharedData::ReAlloc` for other types passes a number of bytes to `SharedData::Alloc`, which takes a number of elements (too much memory, no fault).
* C90 – AutoCleanup.h 46-50: the copy constructor is deleted only where `_HAS_CXX17` is 1, which only Microsoft's library defines. Elsewhere guards can be copied and every copy calls the callback.
* C90 – SRWLock.h 74-90: the members for other systems are declared but defined nowhere.
* C91 – `ReAllocAndZero` outside Windows (Alloc.h 42-47) zeroes the whole block instead of the new part: contents are lost, where `_recalloc` keeps them.
* C91 – `New`/`NewAndZero` (61-63, 73-75) leak the block if the constructor throws. `Delete` (85-86) frees the pointer it is given: through a base class that is not the first, an interior pointer.
* C91 – `ReAlloc(p, 0)` returns null like a failure although the block is freed.
* C92 – `Format`/`AppendFormat` whose formatted text is empty, on a String that is empty and shares the static block (any `String` not given a text; for `Format` also any shared String): `LockBuffer(0)` returns the buffer of the `const static` empty block and `FormatStringV` stores the terminator there (String.h 65-69, 266-311, 1168). Undefined behaviour, `C92_empty_fails`.
* C92 – `AppendFormatV` passes the same `va_list` to two printf functions without `va_copy` (String.h 61, 69): undefined wherever a `va_list` is not passed by value, i.e. on Linux (`C92_va_list_fails`). On Linux the wide `GetStringFormatLength` (tchar.h 126, `vswprintf(nullptr, 0, …)`) is negative for every non-empty text.
* C92 – `s.AppendFormat("%s", s.GetConstString())` on an unshared String reads freed or overwritten memory (`C92_own_fails`), although `AppendString` and `SetString` treat aliasing at least partly; `Format` discards the old text before it knows whether the format is valid.
* C93 – `Transform(aStringView, u16StringLE*)` ignores the failure result 0 of `MultiByteToWideChar` (StringTransform.cpp 308-311): an unknown code page, or a text that needs more UTF-16 units than it has bytes, is reported as S_OK with nothing appended (`C93_silent_fails`); all conversions from code pages go through it.
* C93 – `Transform(aStringView, aString*)` appends the bytes without looking at the two encodings (122-135), `C93_cp_fails`; the conversions from a code page into an empty `u16StringBE`/`u32StringBE` end in the double release of C08 (`C93_be_fails`).
* C95 – `ParallelTaskRunnerImpl` (ParallelTaskRunnerImpl.hpp 308-390): the executors share one reference, which `SubtractWakeupOnce` releases (387) before `operator()` calls `IsShared()` and reads the flags (317-323). If the user gave up the runner while its last task ran, that `Release` destroys it and the executor uses the destroyed object (`C95_after_fails`). Conversely an executor leaving the loop by `break` (no other owner, interrupt, empty queue) decrements `uParallelCurrent` (358) but never releases the shared reference: the runner is then never destroyed (`C95_leak_fails`: given up with two tasks queued; `C95_interrupt_leak_fails`: after `Interrupt`).
* C96 – `RunTask` (TaskRunner.cpp 80-100) catches only `OperationCanceledException`. If a task of a bound runner throws anything else and the user catches it outside `RunUIMessageLoop`, the task's `Wakeup`, `Release`, `++uProcessedTaskCount` and `--uTaskRunnerReentryCount` are skipped. The last two compensate each other, so the other tasks still run when the loop is started again (`C96_others_partial`, `C96_loop`), but a thread waiting for the task (`SendTask`) waits for ever, the task is leaked (`C96_waiter_fails`) and `Join` never succeeds (`C96_join_fails`).
* C97 – `Trim*`, `IndexOfAny` and `LastIndexOfAny` (StringView.h 249-754, 970-1475) take the set argument as units. Trimming 'é' (C3 A9) from the UTF-8 text "èx" (C3 A8 78) cuts the 'è' in half and leaves malformed text; `IndexOfAny` finds 'é' in "è"; in UTF-16 trimming U+1F600 from U+1F601 leaves a lone surrogate (`C97_set_fails`). In a double-byte ANSI code page `IndexOf` finds '\\' inside 95 5C and splits there (`C97_ansi_fails`).
* C98 – `Compare` of UTF-16 texts puts U+FF5E after U+1F600; with `char` (signed, before C++20 u8 literals are `char`) 'é' sorts before 'a'; for `u16char_t` of the other byte order the order is that of the swapped units (`C98_order_fails`) and `CompareI` tells "a" and "A" apart but equates U+6100 and U+4100 (`C98_case_fails`).
* C99 – the code page of an `aString` is lost by every change of a string whose storage is shared, except `Remove` (`C99_codepage`, `C99_shared_fails`): after `aString b = a; b += 'x';` with `a` in code page 936, `b` claims the default code page. Copying or assigning a *locked* string copies the bytes only (String.h 211-217, 397-400): the copy claims the default code page, an assigned string keeps its own old label (`C99_locked_fails`).
* C58 – `NString::Clear` of a shared ANSI string allocates a block for the code page; if that fails it silently falls back to the default code page and reports S_OK (`C58_clear_fails`).
* C03, C07 – the conversions between well-formed texts and the exact condition for a round trip are now given as "if and only if" (`C03_iff`, `C07_utf16_iff`, `C07_utf8_iff`); a text that ends inside a character loses that rest for every text (`C07_cut_fails`).
* C100 – `SleepAsync` with a token: cancelling the token does not touch the operation. A thread in `WaitTask`, a continuation or a coroutine that awaits it goes on only when the timer fires, after the full delay (`C100_token_fails`), although `IsCanceled` and every new `WaitTask` report the cancellation at once.
* C100 – `SleepAsync` ignores the result of `PostDelayTask` (TaskRunner.cpp 209-212), and a timer that is dropped by a stopping runner destroys its callback without completing the operation: the task stays `Started` and waiters wait for ever (`C100_stop_fails`).
* C101 – `TaskRunnerDispatchImpl::SetTimerInternal` cuts the time left to `UINT32_MAX` ms and dispatches the task when that is over without looking at the clock again: a delay above 49.7 days ends after 49.7 days (`C101_long_fails`).
* C101 – `PostDelayTask(TimeSpan::GetMax())` adds with wrap-around: on counters of an even multiple of 10 MHz (e.g. the time stamp counter of 3 GHz) the deadline lies in the past and the task runs at once (`C101_max_fails`). A negative delay reaching behind the start of the counter wraps the other way: the task never runs (`C101_negative_fails`).
* C101 – at frequencies above 10 MHz that are no multiple of it (19.2 MHz and 24 MHz on ARM) `UMulDiv64Fast` divides the frequency first, so every delay is too short, at 24 MHz by a sixth (`C101_fast_fails`). Below 10 MHz it rounds `10^7 / f` down, so at frequencies that do not divide 10 MHz delays are too long by a fixed part, at 3 579 545 Hz by 40 % (`C101_slow_fails`).
* C102 – `NString::GetString(u32StringBE*)` of a UTF-16LE NString returns S_OK with freed storage for every text that is not empty; the same for an ANSI NString to UTF-16BE/UTF-32BE, and for appending to an empty NString of those encodings.
* C102 – `GetString(aString*)` converts Unicode text to the code page of the destination, but an ANSI NString overwrites the destination's code page with its own.
* C103 – a thread task runner looks at the time limits of its waits only when `MsgWaitForMultipleObjectsEx` itself returns `WAIT_TIMEOUT`; as it always asks for at least 1 ms, a message (every posted task may send one) in each millisecond keeps a wait whose time is over pending for ever (`C103_starved_fails`).
* C104 – a mutex that is abandoned while the thread pool waits for it is reported as `WAIT_OBJECT_0`: the pool's callback only knows signalled or timed out (`C104_abandoned_fails`).
* C104 – a handle that the thread pool cannot wait for ends the wait with the status `Error` instead of `WAIT_FAILED`; `Wait::OnCompleted` ignores that status, so the callback of `CreateWait` is never called although it is documented to be (`C104_refused_fails`).
* C104 – `CreateWait` on a stopped thread runner from another thread returns an object although the registration was refused; its callback is never called, not even at the time limit (`C104_stopped_fails`).
* C105 – all headers are packed to 4 bytes. On 64-bit processors the `SRWLOCK` of every `CancellationTokenSource` (offset 20), `WaitAsyncOperation::hThreadPoolWait` (exchanged atomically) and the bit maps of two timing wheels are never aligned: atomic instructions fault there on ARM64.
* C105 – `Optional` keeps its value in a plain `char` array: the object has alignment 1 and sizeof(T)+1 bytes, so that of two neighbouring Optionals at least one value is not aligned.
* C106 – UI loop: a message handler that posts a message each time keeps tasks, timers and `bInterrupt` waiting for ever (the message phase 79-100 tests only `IsShared`).
* C106 – UI loop: a task that posts itself again keeps all timers and waits waiting for ever (`break`, 125, in front of `ProcessingTimerTasks`).
* C106 – background loop: a task that posts itself again keeps `WM_QUIT`, all messages and all waits waiting for ever (`continue`, 192).
* C106 – background loop: with timers or waits only, neither `Interrupt` nor the loss of the last reference ends the loop (tests only at 204 and 239).
* C106 – both loops wait without `MWMO_INPUTAVAILABLE`: after task code looks at the queue (`PM_NOREMOVE`) an unread message is slept on; in the background loop also after a wait that reports a handle, if that counts as a look, as documented.
* C107 – `RefPtr::Attach` (RefPtr.h 181-186) calls `Release` before it overwrites `p`: a destructor that reads the variable being reset gets a pointer to the object under destruction and takes a reference to it.
* C107 – dropping the head of a list linked by `RefPtr` members nests one destructor per node: the stack needed is unbounded.
* C108 – `SharedData::ReAlloc` (Array.h 419) calls `SharedData::Alloc`, which takes a number of elements, with a number of bytes: growing an array of class objects of size t asks for t times the memory needed.
* C108 – `Alloc`/`ReAlloc`/`AllocStringData`/`ReallocStringData` compute sizes without overflow checks: `Reserve(2^60)` of 16 byte elements gets 32 bytes and records 2^60 elements.
* C108 – `Resize` (and `Reserve`) grows to the next multiple of 16 only: growing by one element at a time moves 8 q (q - 1) elements for 16 q.
* C29 – `ObserverPtr::operator==(const _Type*)` (ObserverPtr.h 178-181) compares the stored address without asking whether the object lives, and `Reset()` keeps that address: `p == nullptr` is false for every observer whose object was destroyed, and for one assigned `nullptr`, although `Get()` returns null (`C29_eq_null_fails`, `C29_eq_reset_fails`).
* C32 – `InterlockedQueue` has no destructor: every queue that was pushed to once (one per runner of each kind) leaks its last block, 4 KiB and more, when its owner is destroyed (`C32_leak_fails`); entries still queued are lost with it.
* C31 – at every depth `n ≥ 2` the section is free after `n - 1` of the `n` necessary `Unlock` calls (`C31_depth_fails`).
* C44 – `SequencedTaskRunnerImpl`: an executor that has left its loop looks at the flags again (115-117) and may clean up the queue because of a later `Interrupt`, while the next executor takes tasks out of it: two threads call `Pop` of the single-consumer queue (`C44_single_consumer_fails`); then both can obtain the same task – run by one, cancelled and released by the other – and the read index overtakes the write index (`C32_two_consumers_fails`). The parallel runner has a pop lock for this.
* C109 – `ExecuteTaskRunner` (SequencedTaskRunnerImpl.cpp 134-138) takes `IsShared() == false` as "the user has released the runner". An executor that has left the loop still owns its reference until its callback returns, so a second executor started in the meantime sees `IsShared()` and runs queued tasks although no user is left.
* C110 – `GenerateNewTaskRunnerId` (TaskRunnerImpl.cpp 17-21) wraps after 2^32-1 runners: a long-lived runner then shares its "unique" id with a new one, and one runner gets id 0.
* C111 – `UniquePtr::Reset` (UniquePtr.h 66-72) deletes the old object before it stores the new pointer (std::unique_ptr does it the other way round): a destructor that clears or assigns the handle which owns its object deletes the object twice (`C111_reenter_fails`).
* C112 – `AsyncRead` and `AsyncWrite` pass `ERROR_SUCCESS` to the callback and return it whenever the operation is already complete, and a request that failed at once counts as complete: an invalid handle or the end of the file looks like a successful transfer of 0 bytes. A pending request is reported with its error or as a success depending on when it ends. `AsyncConnect` passes the status on. None of them ever returns an error.
* C113 – A timer set on a proxy runner by another thread is only given to the manager (ThreadTaskRunnerProxyImpl.h 189-192); nothing starts the window's timer, so it fires only after the thread itself sets a timer or an earlier timer happens to come due (`C113_remote_fails`, `C113_remote_late_fails`). `ExecuteTimerTasks` should be called in the posted task.
* C113 – The wait is rounded down to whole milliseconds, so a `WM_TIMER` may come just before the wake-up time; then `ExecuteTimerTasks` finds the same wake-up time and does not set the (periodic) timer again, so the next message comes a whole period later: a timer of one second fires after 1998 ms (`C113_double_fails`).
* C113 – A timer set in a dialog that was opened by the callback of an overdue timer is not armed, because `uSetTimerCount` is 2 until the dialog closes (`C113_dialog_fails`).
* C114 – A repeating timer whose remaining time is below a millisecond when its callback returns is posted at once (TaskRunner.cpp 375, ThreadTaskRunnerImpl.cpp 313 round down), and the next interval starts from that call: the millisecond is lost in every round. A timer of 1 ms becomes a loop without pauses (`C114_tight_fails`).
* C115 – `StringView<achar_t, ANSI>(nullptr, n)` keeps the length n (778-783) where the other views use 0 (42-52): searching or comparing it reads through the null pointer (`C115_null_fails`). `operator==` ignores the encoding member: the bytes C3 A9 as UTF-8 and as Latin-1 are equal views of different text (`C115_equal_fails`).
* C117 – `String::operator=` clears the String before it asks for memory: when it throws, the old text is lost. `operator=(StringBase&&)` is `noexcept` but throws for a locked source: the program ends.
