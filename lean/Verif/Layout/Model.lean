/-!
# Where the library puts things in memory

All headers and sources are compiled under `#pragma pack(push, __YY_PACKING)` with `__YY_PACKING` = 4 (include/YY/Base/YY.h 21; e.g. RefPtr.h 20, Optional.h 7, Array.h 41, Async.h 13,
TaskRunner.h 18, CancellationToken.h 13, ThreadTaskRunnerImpl.h 14).  Under this pragma the compilers place bases and members in the order of declaration, each at the next multiple of the smaller of
4 and its alignment, and the class gets the greatest of these as its own alignment.

A type is its size and alignment.  `Target` has the sizes that differ between the supported compilers and processors.  A union with a single relevant member is this member, an array is one
member of the whole size.  Empty bases and bases without members take no room.  Not modelled: bit fields (they fill whole words here), virtual bases (there are none).
-/
namespace Verif.Layout

structure Ty where
  size : Nat
  align : Nat
deriving DecidableEq

/-- the next multiple of `a` -/
def up (n a : Nat) : Nat := (n + a - 1) / a * a

/-- alignment of a member inside a class: `__YY_PACKING` is 4 (YY.h 21) -/
def packed (t : Ty) : Nat := min t.align 4

/-- offset behind the members `ts`, which begin at `off` -/
def endOf : Nat → List Ty → Nat
  | off, [] => off
  | off, t :: ts => endOf (up off (packed t) + t.size) ts

/-- offset of the member that follows `ts` -/
def offset (ts : List Ty) (t : Ty) : Nat := up (endOf 0 ts) (packed t)

/-- alignment of a class with the members `ts` -/
def alignOf : List Ty → Nat
  | [] => 1
  | t :: ts => max (packed t) (alignOf ts)

/-- the class with the members `ts` -/
def cls (ts : List Ty) : Ty := ⟨up (endOf 0 ts) (alignOf ts), alignOf ts⟩

/-- sizes of a pointer, of `std::function` and of `std::exception_ptr` (both consist of pointers), and what `malloc` guarantees -/
structure Target where
  ptr : Nat
  fn : Nat
  eptr : Nat

/-- 32 and 64 bit -/
structure Target.Ok (T : Target) : Prop where
  ptr : T.ptr = 4 ∨ T.ptr = 8
  fn : T.fn % T.ptr = 0
  eptr : T.eptr % T.ptr = 0

def u32 : Ty := ⟨4, 4⟩
def u64 : Ty := ⟨8, 8⟩
/-- `bool` -/
def bool : Ty := ⟨1, 1⟩

variable (T : Target)

/-- pointers, `HANDLE`, `size_t`, `uint_t`, `int_t`, `RefPtr` (RefPtr.h), `WeakPtr` (WeakPtr.h 27), `uString`, `SRWLOCK` -/
def ptr : Ty := ⟨T.ptr, T.ptr⟩
def fn : Ty := ⟨T.fn, T.ptr⟩
def eptr : Ty := ⟨T.eptr, T.ptr⟩
/-- `n` elements of a type -/
def arr (t : Ty) (n : Nat) : Ty := ⟨t.size * n, t.align⟩

/-- members in front of `uWeakRef` in `RefValue`: virtual table, `uRef` (RefPtr.h 31-32) -/
def refValueL : List Ty := [ptr T, u32]
/-- `RefValue` (RefPtr.h 28-41) -/
def refValue : Ty := cls (refValueL T ++ [u32])

/-- `TaskEntry`: `fStyle`, `hr`, `pfnTaskCallback`, two `WeakPtr` (TaskRunner.h 50-61) -/
def taskEntry : Ty := cls [refValue T, u32, u32, fn T, ptr T, ptr T]

/-- in front of `hThreadPoolTimer` in `Timer` (TaskRunner.h 109-117) -/
def timerL : List Ty := [taskEntry T, fn T]

/-- `AsyncInfo`: `hr`, `eStatus`, `eptr`, `pCancellationToken` (Async.h 33-39) -/
def asyncInfo : Ty := cls [refValue T, u32, u32, eptr T, ptr T]

/-- `Delegate` is a `DoublyLinkedList`: two pointers (Delegate.h 17, DoublyLinkedList.h) -/
def delegate : Ty := cls [ptr T, ptr T]

/-- in front of the result in `AsyncOperationImpl`: `AsyncInfo`, `oSRWLock`, `oCompletedDelegate` (Async.h 267-268, 405-409) -/
def asyncImplL : List Ty := [cls [asyncInfo T, ptr T, delegate T]]

/-- `AsyncOperationImpl<ResultType>` (Async.h 396-409) -/
def asyncImpl (r : Ty) : Ty := cls (asyncImplL T ++ [r])

/-- in front of `hThreadPoolWait` in `WaitAsyncOperation : AsyncOperationImpl<DWORD>` (TaskRunner.h 132-139) -/
def waitL : List Ty := [asyncImpl T u32]

/-- in front of `oCallbacksLock` in `CancellationTokenSourceImpl`: `bCancel` (CancellationToken.h 138-139); its first member is the `SRWLOCK` (CriticalSection.h 18, SRWLock.h 17) -/
def cancelL : List Ty := [refValue T, u32]

/-- `TaskRunner`: `uTaskRunnerId` (TaskRunner.h 191-199); `SequencedTaskRunner`, `ThreadTaskRunner` add nothing -/
def taskRunner : Ty := cls [refValue T, u32]

/-- `InterlockedQueue`: two pointers (InterlockedQueue.h 38-39) -/
def queue : Ty := cls [ptr T, ptr T]

/-- in front of `uWakeupCountAndPushLock` in `SequencedTaskRunnerImpl` (SequencedTaskRunnerImpl.h 18-22) -/
def seqL : List Ty := [taskRunner T, queue T]

/-- in front of `TaskRunnerFlags` in `ParallelTaskRunnerImpl`: `uParallelMaximum`, `oTaskQueue` (TaskRunner.h 528, ParallelTaskRunnerImpl.hpp 132-153) -/
def parL : List Ty := [cls [taskRunner T, u32], queue T]

/-- `BitMap<n>`: `arrBits`, `uCount` (BitMap.h 144-145) -/
def bitMap (n : Nat) : Ty := cls [arr (ptr T) ((n + 8 * T.ptr - 1) / (8 * T.ptr)), u32]

/-- in front of `oTimingWheel1BitMap`: the last tick, the base, 128 + 64 + 64 + 1 lists of two pointers (ThreadTaskRunnerTimerManger.h 41-51, SingleLinkedList.h 28-29) -/
def wheelL : List Ty := [u64, u64, arr (cls [ptr T, ptr T]) 128, arr (cls [ptr T, ptr T]) 64, arr (cls [ptr T, ptr T]) 64, cls [ptr T, ptr T]]

/-- `ThreadTaskRunnerTimerManger` (34-56) -/
def timerManger : Ty := cls (wheelL T ++ [bitMap T 128, bitMap T 64, bitMap T 64])

/-- `ThreadTaskRunnerWaitManger`: 64 handles, 64 `WeakPtr`, `cWaitHandle` (ThreadTaskRunnerWaitManger.h 21-23) -/
def waitManger : Ty := cls [arr (ptr T) 64, arr (ptr T) 64, u32]

/-- in front of `uWakeupCountAndPushLock` in `ThreadTaskRunnerImpl` (ThreadTaskRunnerImpl.h 29-41) -/
def threadL : List Ty := [taskRunner T, timerManger T, waitManger T, queue T]

/-- header of the shared storage of an `Array`: `fMarks`, `iRef`, `uCapacity`, `uSize` (Array.h 221-231); the elements follow at `this + 1` -/
def sharedData : Ty := cls [ptr T, ptr T, ptr T, ptr T]

/-- header of a `String`: `uRawData` (with `iRef` in its second half), `uCapacity`, `uSize` (String.h 1063-1084); the text follows at `this + 1` -/
def stringData : Ty := cls [u64, ptr T, ptr T]

/-- `Optional<_Type>`: `char oValueBuffer[sizeof(_Type)]`, `bHasValue` (Optional.h 19-24) -/
def optional (t : Ty) : Ty := cls [⟨t.size, 1⟩, bool]

/-- in front of `InsideBuffer` in an `Array` with small object optimisation: a bit field of a `size_t`, `uSize` (Array.h 616-626) -/
def sooL : List Ty := [ptr T, ptr T]

/-- size of `InsideBuffer` (Array.h 626, 645): `LargeHeader` has four pointer sized members (601-611) -/
def sooInside (t : Ty) (n : Nat) : Nat := 4 * T.ptr + t.size * n - 2 * T.ptr

/-- the `Array` object: a union of the small header and the large header (Array.h 664-682) -/
def soo (t : Ty) (n : Nat) : Ty := cls [ptr T, ptr T, ⟨sooInside T t n, 1⟩]

/-- the words the library operates on atomically -/
inductive Word where
  /-- `Sync::Increment`/`Decrement` (RefPtr.h 48-95) -/
  | uRef | uWeakRef
  /-- `BitSet` in `TaskEntry::Cancel` (TaskRunner.cpp 72) -/
  | fStyle
  /-- `CompareExchange` (Async.h 201-227) -/
  | eStatus
  /-- the `SRWLOCK` of an asynchronous operation (Async.h 267) -/
  | asyncLock
  /-- `ExchangePoint` (TaskRunner.cpp 146, TaskRunnerDispatchImpl.cpp 61, 92) -/
  | hThreadPoolTimer
  /-- `ExchangePoint` (TaskRunner.cpp 582, TaskRunnerDispatchImpl.cpp 122, 151) -/
  | hThreadPoolWait
  /-- `Exchange` (CancellationToken.h 177) -/
  | bCancel
  /-- the `SRWLOCK` of a cancellation source (CancellationToken.h 139) -/
  | callbacksLock
  /-- `SequencedTaskRunnerImpl` (.cpp 81-167) -/
  | seqWord
  /-- 64-bit `CompareExchange` (ParallelTaskRunnerImpl.hpp 254, 377) -/
  | fFlags64
  /-- `BitSet`/`BitReset` of the timing wheels (ThreadTaskRunnerTimerManger.h 86 ff., BitMap.h 172, 181) -/
  | wheel1 | wheel2 | wheel3
  /-- `ThreadTaskRunnerImpl` (.cpp 115-444) -/
  | threadWord
  /-- reference count of an `Array` (Array.h 266, 276) -/
  | arrayRef
  /-- reference count of a `String` (String.h 1193, 1210) -/
  | stringRef
deriving DecidableEq

/-- its number of bytes -/
def width : Word → Nat
  | .asyncLock | .hThreadPoolTimer | .hThreadPoolWait | .callbacksLock | .wheel1 | .wheel2 | .wheel3 | .arrayRef => T.ptr
  | .fFlags64 => 8
  | _ => 4

/-- its offset in the block that was allocated for the object -/
def offsetOf : Word → Nat
  | .uRef => offset [ptr T] u32
  | .uWeakRef => offset (refValueL T) u32
  | .fStyle => offset [refValue T] u32
  | .eStatus => offset [refValue T, u32] u32
  | .asyncLock => offset [asyncInfo T] (ptr T)
  | .hThreadPoolTimer => offset (timerL T) (ptr T)
  | .hThreadPoolWait => offset (waitL T) (ptr T)
  | .bCancel => offset [refValue T] u32
  | .callbacksLock => offset (cancelL T) (ptr T)
  | .seqWord => offset (seqL T) u32
  | .fFlags64 => offset (parL T) u64
  | .wheel1 => offset [taskRunner T] (timerManger T) + offset (wheelL T) (bitMap T 128)
  | .wheel2 => offset [taskRunner T] (timerManger T) + offset (wheelL T ++ [bitMap T 128]) (bitMap T 64)
  | .wheel3 => offset [taskRunner T] (timerManger T) + offset (wheelL T ++ [bitMap T 128, bitMap T 64]) (bitMap T 64)
  | .threadWord => offset (threadL T) u32
  | .arrayRef => offset [ptr T] (ptr T)
  | .stringRef => 4

end Verif.Layout
