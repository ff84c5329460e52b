# Design: a Lean 4 model of Vlpp and what is proved about it

The code is `/repo/Source` (C++, header templates mostly). This file says, per property of
`properties.jsonl`, what is modelled, how it is proved, and what is outside the model.

## Conventions of the model

* `vint`/`vint64_t` values that are indexes or sizes are Lean `Int`/`Nat` (no overflow at 2^63: a container
  of that size cannot be allocated; what happens with arguments near 2^63 is C101). Code units, byte arithmetic and values whose wrap-around matters
  (UTF conversion, DateTime, number parsing) use bounded `Nat`/`Int` with explicit range conditions and
  explicit wrap-around.
* `CHECK_ERROR`/`CHECK_FAIL` raise `vl::Error`: modelled as the outcome `Outcome.err`.
* Undefined behaviour (access to raw/dead/foreign memory, use of a destroyed object, double destruction) is
  the separate outcome `Outcome.fault`; no theorem ever assumes it away silently: "no UB" is a conclusion.
* Every model definition carries a comment with the file and lines it models and any simplification.
* Property theorems live in `Verif/Props/*.lean`, models in `Verif/Model/*.lean`, small specifications in
  `Verif/Spec/*.lean`, helper lemmas in `Verif/Lemmas/*.lean`.
* If the code violates a property, the negation is proved with a concrete witness (`..._violated`), and the
  true part is proved with the suffix `_partial`.

## Trusted base

* Lean 4.33.0 kernel. Axioms: at most `propext`, `Classical.choice`, `Quot.sound` (checked by `#print axioms`
  via vcheck). No own axioms, no `sorry`, no `native_decide`, no `bv_decide`.
* The hand translation from C++ to the Lean model, function by function, as cited in the comments.
* Not modelled: the C++ type system and overload resolution, templates' instantiation, compiler, libc
  (`malloc`, `strtol`, `mktime`, ... are modelled by their documented behaviour), exceptions thrown by element
  constructors and assignments (except in the models of Variant, Nullable and `Model/HeapThrow`), allocation failure, stack overflow, and data races except in
  the reference counter model.

## Reading seeded/LOG.jsonl

`theorems_failed` of an entry names the declarations whose proofs no longer check after the edit, and the registered theorems
that use them. A proof script can fail although its statement is still true of the edited model, and a theorem can be listed only
because it uses a failed lemma, so an entry shows that the edit was noticed, not that every listed statement became false.
Entries that turned out to be equivalent programs are corrected by later entries; none is removed.

## Not modelled, by file

* Conversion.h/.cpp: readers on `wchar_t` in the configuration `VCZH_WCHAR_UTF16` are those on `char16_t` (C82 has both configurations);
  multibyte encodings with shift states and the Windows version of `wtoa`/`atow`; `UtfReaderConsumer`'s redirection of constructor
  arguments.

* Console.cpp, Console.Linux.cpp, Console.Windows.cpp: locales and characters they cannot represent, failing output, `SetTitle`; the conversion to a
  code page is an arbitrary function.
* String.h: in C96 (threads) `CopyFrom`, `TakeOver`, `UnsafeCastFrom`, `IndexOf` and the overloads for `const T*`, variables that
  are handed from one thread to another, and weaker memory orders (the counter operations are sequentially consistent, and no
  variable or buffer is written while another thread may read it); the lifetime of memory
  given to `Unmanaged` (assumed to outlive the program); names of cells instead of addresses (comparison of pointers is
  comparison of buffer and position).

* Pointer.h: `Ptr(T*)` applied twice to one object; other specialisations of `ReferenceCounterOperator`; user-written
  destructors except in C106 (elsewhere an object is its members of type `Ptr`; C106 has no casts, no `Detach` and no exceptions); which casts succeed (arbitrary in the model). C46 and C104 assume sequentially
  consistent atomics (the default of `std::atomic`); C104 that a pointer is handed to another thread with synchronisation and that
  members are not changed after construction (so there are no cycles). `ComPtr`: `AddRef`/`Release` are those COM prescribes, and each `ComPtr(T*)` takes over a
  reference the program has (making two from one reference is an error of the program); comparison of pointers; threads.
* Function.h: `LambdaRetriveType` and deduction guides, overload resolution (which constructor is chosen is part of the operation),
  null method pointers, exceptions thrown by the functions that are called; functions that use variables of type `Func` only in C68.
* Nullable.h, Variant.h: what happens to the argument of `T&&` functions; overload
  resolution (`IndexOf`, `IndexOfCast`): the chosen alternative is part of the operation; element types that do not compile.
* Pair.h, Tuple.h: comparison (with the same element types on both sides) and objects (C89); not `get` on const tuples as a type, deduction guides, structured bindings.
* String.cpp: configurations other than `VCZH_GCC` with `VCZH_64`; which characters `tolower`/`towlower`/`iswspace` map (arbitrary
  functions in the model). Floating point: `printf("%f")` and `strtod` are those of the C standard in the C locale, with exact
  arithmetic and rounding to nearest, ties to even; "inf", "nan" and hexadecimal numbers are read by an arbitrary function.
* Event.h: null functions, parameters that are non-const or rvalue references, threads, events that are destroyed while they are raised
  (a functor that is deleted while it is running is undefined behaviour in C87, as in C68, also if it uses nothing afterwards).
* GlobalStorage.h/.cpp: threads, finalisers that throw, destructors of the static storages at the end of the program.
* UnitTest.h/.cpp: structured exceptions of Windows, exceptions derived from `Error`/`Exception`.
* DateTime: changes of the standard offset of a time zone (C107 and C108 have daylight saving time), leap seconds, injected implementations, overflow of the members of
  `tm`, numbers of milliseconds outside 0..999 on Linux. The functions of Windows are those of its documentation (Spec/DateTimeWin.lean).
* LoremIpsum.cpp: the sign of `bufferLength` for lengths near the maximum of `vint`; the overloads that call the modelled functions.
* Interfaces.h: in C100 `OnDisposed` that throws (it is called by a destructor), user-written destructors of references, collections inside
  dictionaries and groups (`Keys()`) as separate collections beyond being collections.
* List.h: `memcpy`/`memmove` of 0 bytes from or to `nullptr` (an empty list of a trivially movable type; taken as doing nothing); `PushOnlyAllocator` with block size 0 (division by 0), constructors of the element type that throw; the counter `allocatedSize` does not overflow.

## Plan per property

| id | model | proof |
|----|-------|-------|
| C01 | `Model/Memory`, `Model/ListC`: buffer = array of cells raw/live/moved, capacity, count; every helper of `memory_management` as loops on cells | refinement to `List α` operations; induction over op histories |
| C02 | `Model/HeapList`: the members of a list with a pointer to a buffer on an explicit heap (`malloc`/`free` visible, addresses not reused); `Outcome.fault` on any illegal cell access, use after release, double release, release of live elements | `Lemmas/HeapMem`, `Lemmas/HeapList`: every member function refines that of `Model/ListC`; `Lemmas/ListWorld`: invariant that blocks and lists correspond one to one, for every program over any number of lists; nothing left after all are destroyed |
| C03 | insertion reads its argument after shifting (argument = index into the own buffer) | violated: witness; partial: exact condition under which it is safe |
| C04 | RemoveRange with the real checks | violated for negative count: witness; partial for count >= 0 |
| C05 | Array model on cells | refinement |
| C06,C07 | binary search loop of IndexOfInternal, AddInternal, on top of the List refinement | loop invariant, sortedness, multiset equality; "first index" claim refuted |
| C08 | SortedList copy constructor | violated: witness; List/Array/Dictionary copy partial |
| C09,C10 | Dictionary = sorted keys + parallel values; Enumerator with `current` | refinement to finite map; Reset violated |
| C11-C13 | Group = sorted keys + list of value lists | refinement to multimap; Remove(key,value) result violated |
| C14 | two-pointer merge loop with callback trace | trace equals specification |
| C15,C16 | SortLambda three-phase partition on arrays, explicit comparator | functional correctness; arbitrary-comparator safety; depth bound |
| C17-C25 | enumerator = state machine (Current, Index, Next, Reset); operators as transformers; LazyList functions | denotation to lists, compositional |
| C26 | CompareEnumerable loop | lexicographic order laws |
| C27,C28 | Kosaraju of PartialOrdering.cpp on adjacency lists | white-path/finish-order invariants |
| C29-C35 | UtfConversion From32/To32 for char8_t/char16_t/char16be_t; readers as state machines | round trips for all values, all strings |
| C36-C40 | ObjectString on a heap of reference-counted buffers | refinement to character lists; invariants over histories |
| C41,C42 | decimal printing, strtol/strtoul model, *_test functions | round trip; exact acceptance |
| C43-C45 | heap with counters, Ptr slots inside objects | invariant counter = number of references; violated cases with witness |
| C46 | interleaving semantics of atomic inc/dec | invariant over all schedules |
| C47,C48 | union storage cell with lifetime; throwing constructors and assignments | invariant over histories |
| C49,C50 | Event with address-sorted handler list; argument cell with moves | history invariant; second handler sees moved-from argument (violated) |
| C51 | storages with initialised flag, call trace | history invariant |
| C52 | test trees, interpreter of runner | verdict soundness by structural induction |
| C53 | osInternal arithmetic mod 2^64 with abstract calendar functions | arithmetic; order violated before 1970 |
| C54 | LoremIpsum loop on a buffer of cells | loop invariant; nearest number of words |
| C62 | proleptic Gregorian calendar with a fixed offset as specification of the C library | round trip of the fields; violated before 1970 |
| C63 | ToLocalTime/ToUtcTime with that library | arithmetic |
| C64 | LoremIpsumParagraph loop, arbitrary random numbers | termination measure, length bound; final period violated |
| C65 | InitWithSubClass on Group, SortedList, Dictionary | node = class of items; induced edges; then C27/C28's Sort |
| C69-C72 | `Model/Float`: binary64 as significand and exponent, `%f`, `strtod`, `ftoa`, `atof_test`, `alower` | rounding to nearest characterised in `Spec/Float`; round trips; exact acceptance; violated parts |
| C66-C68 | `Model/Func` on the pointer model of C43: a functor variable is a `Ptr`, an invoker is an object of that model | refinement to functors as values over every history (`Spec/Func`); the wrapped functor always has a smaller number, so calls end and nothing leaks |
| C73,C74 | `Model/ComPtr`: heap of counters and COM objects, plain pointers, `ComPtr`s in variables and objects | simulation: a counter is an object of the model of C43 with one member, so histories of `ComPtr` are histories of `Ptr`; counts stated directly in `Spec/ComPtr` |
| C55,C56 | block allocator, 4-level tree | history refinement |
| C57 | four CopyFrom algorithms | list equations |
| C58 | `(char)towlower` truncation | violated; partial for ASCII |
| C59 | Pair/Tuple comparison folds | order laws by induction on arity |
| C61 | `OrderingOf` on lists of categories | case analysis; violated for strong |
| C60 | Clone as state copy for every enumerator | denotation equality; Dictionary/Group clones violated |
| C75 | `Model/ForEach`: iterator object that owns an enumerator, heap of created enumerators | every body and every way to leave the loop; composes for nested loops |
| C76, C77 | C76: `Model/HeapDict`: a list of keys and a list of values per dictionary, with buffers on heaps, moves, destruction. C77: `Model/DictMem`: arguments that refer to own values | refinement of the sequence-level dictionary, then of finite maps (`Lemmas/HeapDict`); `Lemmas/MoveWorld`: every program over any number of movable objects; nothing left on the heaps at the end |
| C78 | `Model/HeapArray`: arrays whose buffers are on a heap; constructors, `Resize`, moves, destructor | refinement of the array that contains its buffer, then of sequences; `Lemmas/MoveWorld` |
| C79 | `Model/HeapGroup`: groups whose keys, pointers and value lists are on heaps; `new`, `delete`, moves, destructor | refinement of `GroupC` with a frame, then of multimaps; `Lemmas/MoveWorld` |
| C80 | `Model/HeapRef`: arguments as references into buffers on the heaps of `Model/HeapGroup`, followed whenever the callee reads them | equality with the call on copies, from the frame of `Lemmas/HeapMem` (no buffer of another list changes); exact characterisation of the failing case |
| C81 | `Model/HeapThrow`: the functions of `Model/HeapList` and `Model/HeapArray` that copy or construct elements, each of which may throw at any element | equality with the other models where nothing throws, `Lemmas/MoveWorld`; the states that exceptions leave behind are characterised (`Broken`, `Lost`) and shown to be fatal |
| C82, C83 | `Model/UtfWide`: the twelve conversions for both kinds of `wchar_t`; `wcstombs` and `mbstowcs` of the C standard for any stateless encoding | C82 from the lemmas of C32 for every pair of classes, stated with Lean's own UTF-8 and the definition of UTF-16; C83 by induction over the text |
| C84 | Date-times on Windows: members, day of week, order, Forward/Backward, time zone | round trip with the proleptic Gregorian calendar; refinement of FILETIME and SYSTEMTIME as numbers |
| C85 | Enumerators of lists, sorted lists, arrays, dictionaries and groups on the heap while the containers change | simulation of programs over containers and enumerators; negation for dictionaries and groups |
| C86 | Lazy lists whose functions work on a world: state machines whose Next calls functions; specification as trees of calls | simulation of the enumerators by the trees, compositional; programs over many enumerators; negation for arrays |
| C87 | Callbacks as programs that add, remove, ask, raise (nested), throw and catch; the log of a run | Invariant of C49 through all nested runs; positions of handlers by sublists; all finished raises are fair |
| C88 | `Model/CopyString`: `CopyFrom` between strings and containers on the models of strings, arrays and `CopyFrom` | composition of the refinements of C36-C39, C05 and C57 over every history of strings |
| C89 | `Model/TupleObj`: elements of tuples and pairs as objects and pointers in memory | refinement of `Spec/TupleObj` (programs with variables, tuples of values and references, copies, moves, assignments) with a correspondence of objects and addresses |
| C90 | `Model/LazyVars`: programs of lazy lists with selectors that raise Errors; variables of type `LazyList<T>` | relation between the states of an enumerator and a sequence of values and Errors, preserved by every operator; induction over programs with variables |
| C91 | `Model/DictThrow`: `Add` and `Set` of `Model/HeapDict` and `Model/HeapGroup`, where copying the key or the value may throw | equality with the other models where no insertion is interrupted; the states that interrupted insertions leave behind are characterised (`Ruined`) and shown to be fatal |
| C92 | `Model/Number` | the specification says which number a string begins with; `scan` finds it (both directions) |
| C93 | `Model/HeapCopy`: `CopyFrom` with source and target in one memory, elements passed by reference | loop invariants over the heap models of C02, C06, C76, C78 and C79; `partial_fixpoint` for the loops over enumerators, non-termination by its partial correctness; programs with copies by extending the simulations |
| C94 | `Model/Console`: both platforms, output and input as sequences of characters | the specification is a terminal (`Spec/Terminal`) that interprets the output; induction over calls, strings and lines |
| C95 | `Model/UnitTestReport`: the runner with texts, console output, and contexts that are local variables | the specification is an outline (`Spec/Report`) without contexts; structural induction over test code, both with and without suppression; erasure to the model of C52 |
| C96 | `Model/StrThreads`: string variables of several threads, buffers with counters, one memory access or atomic operation per step | invariant over all interleavings: counters are numbers of variables, at most one thread deletes a block, and every thread simulates its program over values (`Spec/StrValues`) |
| C97 | Sort with comparers and element copies that have effects and throw: Model/SortEff (the code of Model/Sort with a program state and exceptions), Spec/SortCalls | ends, permutation, at most n(n-1) comparisons, first exception leaves; erasure to Model/Sort for comparers whose answers are pure |
| C98 | `OrderBy`, `OrderByKey`, `GroupBy` with functions that have effects | the comparer's calls are those recorded by C97's sort; refinement of `Gen` for groups; induction for the number of calls |
| C99 | `SortedList`, `List`, `Dictionary`, `Group` with comparisons that have effects, throw, or are inconsistent | the calls of one search by induction over the interval; each container operation against a relational specification of these calls; a frame of lost lists for `Group`; erasure to C09 and C11 if the answers follow an order |
| C100 | `EnumerableBase` and `ICollectionReference`: associating, asking, destroying; `OnDisposed` is any code | refinement of a machine without counters; counter = number of `Ptr`s, temporaries included; calls of `OnDisposed` = links of destroyed collections |
| C101 | `Model/MachInt` (functions of `Model/Memory`, `ListC`, `Str`, `Ator` with checked 64-bit arithmetic) | machine function = unbounded function, or exactly the overflow |
| C102 | `Model/EnmOwn` (enumerators as objects with plain pointers, `Ptr` scopes, user code that throws) | invariant of all programs, exact set of lost enumerators |
| C103 | `Model/ListCost` (`Model/ListC` with counters for moved elements and allocated buffers) | refinement of a cost meter on the mathematical sequence, amortised bound by a potential |
| C104 | `Model/PtrGraph` (objects with members, threads with variables, one atomic step at a time, deletion of graphs step by step) | invariant (counter = number of pointers, one deleter per object), refinement of a machine on trees in both directions, termination measure |
| C105 | The enumerators of C86, used further after an exception; specification as trees of calls that also say what is left if a call throws | simulation that keeps the state after a throw, compositional; programs over many enumerators; negations for Skip, Take, Pairwise |
| C106 | `Model/PtrDtor` (`Ptr` where deleting an object runs code that uses pointers: one stack of statements, assignments in progress and members to be destroyed) | the specification is a machine without counters in which an assigned pointer is null while a destructor runs (`Spec/PtrDtor`); lockstep simulation with an invariant about what is below a task in the stack; static condition (own members only) by an invariant |
| C107,C108 | `Model/DateZone`: the functions of Model/DateTime with `tm_isdst`, and those that read the clock, on Linux and Windows; `Spec/DateZone`: a zone with a standard distance and daylight saving time at arbitrary times, and what the C standard and Windows say about their functions there | what each function displays, as a closed form in the zone; exact conditions; violations for every zone and library |
| C109 | `InitWithFunc` for functions that have effects, answer inconsistently, throw, or initialise the processor themselves; what an Error of `InitWithGroup` leaves behind (`Model/PartialOrderingEff`, `Model/PartialOrdering`) | induction over the questions; invariant over the loops of `InitWithGroup` up to the first unknown item; the sort theorem of C27/C28 |
| C110 | `Model/PartialOrderingCost`: `Sort` with counters for calls, rounds and active calls (the counters are not in the code, `C110_same` shows that they change nothing) | potential = unvisited (unassigned) nodes and their edges, along partial-correctness induction of the recursive functions; a family of chains for the lower bound |
| C111 | `Model/StorageExit`: the machine of C51, then the destructors of the static variables in reverse order of construction; a use of a destroyed variable is a fault, an exception in a destructor terminates | the invariant of C51 extended to the end; exact run by induction over the storages that remain; the violation for all programs of the bad shape |
| C112 | `Model/Ansi`: the functions of Windows on memory with a code page as a codec and a default character, `ConvertStringDirect`, and the compositions with the conversions of C82 and C83 | the specification relates texts, not functions (`Spec/Ansi`); the replaced text is representable, so the round trip reduces to that of representable texts |
| C113 | `Model/CommandLine`: both overloads with `argc` and `argv`, the options as wide strings, the names of files as bytes | relation of arguments to texts, from which the specification of C52 (`Selected`, `Written`) says what is to be done; bytes of delimiters split texts |
| C114 | `Model/JoinEff`: `GroupInnerJoin` over a state with both groups and everything else, callbacks are arbitrary programs on that state | the calls that are due by C14, made one after another until one throws |
| C115 | `Model/StorageThrow`: `EnsureFinalized`, `FinalizeGlobalStorage`, the destructors, with finalisers on a world that may throw | the state after exactly the finalisers of a list have been called |

## Violations found (the code does not have the stated property)

Each is a theorem with the suffix `_violated` about the model; the true part is the theorem with the suffix `_partial`.

| id | what the code does |
|----|--------------------|
| C03 | `List::Insert`/`Add` of a reference to an own element: the elements are shifted or the buffer is released before the argument is read |
| C04 | `RemoveRange(index, count)` with a negative `count` passes the checks |
| C07 | `SortedList::IndexOf` does not return the first of several equal elements |
| C08 | the constructor `SortedList(const SortedList<T>&)` moves the buffer out of its `const` source |
| C10 | `Dictionary::Enumerator::Reset` always raises an Error (it updates the current pair for position -1); `Clone` loses `Current()` |
| C12 | `Group::Remove(key, value)` returns true although the value is not there |
| C13 | `Group::Enumerator::Reset` always raises an Error |
| C18 | `xs.Skip(n).Take(0)` yields one element |
| C19 | `Repeat` of a dictionary or group raises an Error |
| C34 | UTF-8 decoding: the surrogate check is not reachable, continuation bytes are not checked, 0x80-0xBF is taken for the first of two bytes, overlong forms are decoded |
| C35 | a zero unit inside a range ends the filling of the buffer and is not counted in the clusters |
| C36 | `Sub` and `Remove` accept a negative count if `index + count` is not negative: `Sub` returns the empty string, `Remove` repeats characters |
| C41 | `itoa`/`utoa` print a 64-bit `vint`/`vuint`, `atoi_test`/`atou_test` accept only 32 bits |
| C43 | a member pointer that holds the last reference to its own object cannot be set to null or assigned: the object is deleted during the assignment and its member released a second time |
| C44 | `p = q` and `p = std::move(q)` with `q` a member of the object only `p` owns (`head = head->next`): `Dec` deletes the object before `q` is read |
| C45 | `Detach` of a shared pointer decrements the counter but leaves the pointer as it is: its destructor decrements again |
| C47 | `a = a.Value()` for a type without copy assignment destroys the object before copying it |
| C48 | an assignment that replaces the alternative destroys the old one and sets `index` first: if the construction throws or the alternative is not copyable/movable, nothing is alive and the destructor is undefined; assigning a part of the own alternative reads a destroyed object |
| C49 | a callback that removes its own handler makes the raise skip the next one; a callback that adds a handler with a lower address makes a handler run twice; handlers of a destroyed event stay attached |
| C50 | arguments are forwarded to every handler: a temporary given to a by-value parameter is moved from after the first |
| C51 | a finaliser that accesses a finalised storage initialises it again, and it is not finalised; an initialiser that throws leaves the storage initialised; cyclic initialisers see storages that are not ready |
| C52 | an assertion directly in a category stops the rest of the category; a test that catches everything hides its failed assertion, because failures are recorded by the runner's handlers only |
| C53 | the internal value is a count of milliseconds since 1970 modulo 2^64: a date before 1970 has a greater internal value than every later date, and splitting its internal value gives another time |
| C58 | `wlower`/`wupper` cast the mapped character to `char`: everything outside ASCII is corrupted; a zero ends the string |
| C60 | see C10 |
| C61 | `OrderingOf` of strong orderings only selects the primary template: `std::partial_ordering` |
| C62 | `FromOSInternal` of a date before 1970 is a date about 290 million years later |
| C64 | `LoremIpsumParagraph` can end with ", " instead of a period (for 20 characters: "Lorem ipsum dolor sit, ") |
| C65 | `InitWithSubClass` with the same object twice in `items`: two nodes, both refer to the first position (`C65_violated_duplicates`); the property is stated for different objects |
| C67 | `Func` made from a null function pointer (also `Func<...> f = nullptr`, and a method of a null object): tests as non-null, differs from the null functor, crashes when called (`C67_violated`, after every history) |
| C68 | a functor that replaces the only `Func` that holds it while it is running is deleted while it is running (`C68_violated`, after every history) |
| C70 | `ftoa` writes six decimals only: a number that is not nearest to such a decimal does not come back, e.g. everything between 0 and 0.0000005 becomes "0" |
| C71 | `atof_test("")` succeeds with 0; leading spaces are accepted |
| C72 | `alower`/`aupper` pass a negative `char` to `tolower`/`toupper` (undefined behaviour); a zero ends the string |
| C73 | as C43 for `ComPtr`: a member that holds the last reference to its own object cannot be set to null (`C73_violated_cycle`) |
| C74 | as C44 for `ComPtr`: `head = head->next` reads `next` after `Release` deleted its object (`C74_violated`, in every state) |
| C75 | the constructor of the loop's iterator calls `Next`: an Error there leaks the enumerator (`C75_violated`; `for (auto y : From(xs).Select(f))` where `f` raises an Error for the first element) |
| C77 | `d.Set(k, d[k2])`, `d.Add(k, d[k2])` with a new key `k`: undefined behaviour when the values' buffer is full (`C77_violated_full`); with room and `k` before `k2` undefined behaviour or the value of another key (`C77_violated_after`) |
| C80 | `g.Add(k, g[k][m])` when the list of `k` is full: undefined behaviour (`C80_arguments_partial` says exactly when, `C80_violated` is a program) |
| C81 | `Add` and `Insert` of lists and sorted lists increase `count` before the element is constructed: when that throws, the list cannot be destroyed. `Resize` and the constructors of `Array` lose the new buffer when an element throws, and `Resize` leaves moved-from elements (`C81_violated_list`, `..._sorted`, `..._array`, `..._resize`) |
| C84 | DateTime.Windows.cpp 44-93: the results of `SystemTimeToFileTime` and `FileTimeToSystemTime` are not checked; for dates that do not exist, or from the year 30828 on, an uninitialised variable is used (`C84_undefined`, `C84_violated_internal`). `FromOSInternal` sets `osInternal` to the value rounded down to milliseconds. |
| C85 | The enumerators of a `Dictionary` and a `Group` keep a pair of references to the key and the value (Dictionary.h 36-42, 289-299). After `Clear` (or anything else that releases the buffers) `Current` returns references to released memory; the enumerators of lists check the position and raise an error. `Reset` always raises an error (see C10). |
| C86 | Copying a lazy list to an `Array` enumerates it twice (OperationCopyFrom.h 70-85): each function is called twice for each element, and if the second round gives another number of elements there is an Error or the array keeps old or default elements. `Take(0)` after `Skip` computes an element (see C18). |
| C89 | Making or assigning `Tuple<T...>` from an rvalue `Tuple<T&...>` moves values out of the objects that the references denote (Tuple.h 36, 151; `std::tuple` forwards references and copies): `C89_violated_move`, `C89_violated_move_assign` |
| C89 | Elements are assigned or moved one after the other, so that an element that refers to another element of one of the tuples gets the new or moved-from value (`std::tuple` does the same): `C89_violated_swap`, `C89_violated_shift` |
| C91 | `Add` and `Set` of `Dictionary` and `Add` of `Group` leave a container that cannot be destroyed, cleared or assigned to when copying the key or the value throws while an entry is inserted; if the value threw, a dictionary contains the key without a value; if the key threw, a group has lost the new value list (`C91_violated_dictionary`, `C91_violated_group`) |
| C93 | `CopyFrom(x, x)`: with `append` false nothing is left of a list, sorted list, dictionary or group (arrays are unchanged); with `append` true undefined behaviour for lists whose buffer has no room for all elements, for every lazy list over the target that is not empty, and for sorted lists whose smallest element is unique; for groups the call does not return (`C93_list_self`, `C93_sorted_self`, `C93_dictionary_self`, `C93_group_self`, `C93_violated_list`, `C93_violated_sorted`, `C93_violated_group`) |
| C94 | On Linux `SetColor(..., light)` chooses high intensity if `light` is false and normal intensity if it is true, and every `Write` writes an additional zero character (`std::ends`); `Read` loses the rest of a line behind a zero and returns an empty string at the end of the input. On Windows with a redirected output `Write(string, length)` ignores `length` and writes up to the next zero, or reads beyond the end of the memory; `Read` loses the character behind a lone CR and does not return at the end of the input (`C94_violated_light`, `C94_violated_zero`, `C94_violated_length`, `C94_violated_read`) |
| C95 | Without suppression (`/D` or a debugger) `RunCategoryOrCase` does not restore `testContext` when an exception leaves it: if the exception of a failing case is caught outside (by the program or by `TEST_EXCEPTION`), a destroyed context is used, at the latest at the end of the file (`C95_violated_caught`) |
| C96 | `Buffer()` is `const` but replaces the buffer of a string that is a part of another one: if two threads call `const` functions of one constant string, and one of them is `Buffer()`, the other one can use the deleted buffer or counter (`C96_violated_buffer`) |
| C97 | Operation.h 117-119 (and 141-143, 161-163): if the second copy assignment of an exchange throws, one element has been overwritten and is lost: the buffer is no permutation after the exception (`C97_violated_copy`) |
| C99 | `Group::Add` loses the list of values made for a new key if a comparison throws while the key is added |
| C101 | `RemoveRange(i, 2^63-1)`, `Sub(i, 2^63-1)` and `Remove(i, 2^63-1)` with `0 < i` in range overflow in the check of the count (List.h 525, String.h 465, 483); `Array<vint32_t>(2^62+1)` has memory for one element and `Count()` 2^62+1 (List.h 113, 322); `Range(start, count)` overflows if it starts at -2^63 or if its last element is 2^63-1 (OperationEnumerable.h 76, 97); `Take(-2^63)` overflows (OperationSequence.h 60). `C101_removeRange_violated`, `C101_strings_violated`, `C101_array_violated`, `C101_range_violated`, `C101_take` |
| C102 | The iterator of a range-based loop makes its enumerator and calls `Next` in its constructor, so its destructor does not run if `Next` throws (OperationForEach.h 31-35): the enumerator with all it owns is lost; the same in `Aggregate(init, f)`, `All`, `Any`, which use such loops. `new IntersectExceptEnumerator(xs(), …)`, and cloning `Intersect`, `Except` (OperationSet.h 29-43), lose the inner enumerator if copying or comparing an element throws; so does any `new …Enumerator(xs(), f)` if copying `f` throws. |
| C103 | `ReleaseUnnecessaryBuffer` (List.h 132-134) makes the buffer smaller only if at most eight elements remain, and then only by three eighths per call: a list of 9 elements can hold a buffer for millions (`n + 9` times `Add`, then `RemoveRange(9, n)`), until `Clear` is called or the list is destroyed |
| C104 | `Ptr::operator=(const Ptr&)` (Pointer.h 241-253) calls `Dec` before it reads its argument: `p = p->next`, where `p` is the only pointer to the node, deletes the node and then reads the member of the deleted node; if another thread also holds the node, the same line is fine or undefined depending on the schedule |
| C105 | `SkipEnumerator::Next` sets `skipped` before it skips (OperationSequence.h 113-124): after an exception it delivers elements that it had to skip. `TakeEnumerator` asks for `Index()` of its source, which for `Select` and `Concat` also counts elements that were lost: fewer elements are delivered. `PairwiseEnumerator` does not move the second enumerator if the first throws (OperationPair.h 56-67): the positions no longer agree. After the end of its second sequence it still calls the functions of the first. |
| C106 | `Ptr::Dec` (Pointer.h 97-110) deletes counter and object first and sets the pointer to null afterwards: a destructor that uses the pointer through whose assignment it was called (a global variable that is reset, for example) sees the object that is being deleted; copying or assigning the pointer uses the deleted counter (`C106_violated_copy`, `C106_violated_null`, `C106_violated_move`, `C106_violated_test`, in every reachable state by `C106_busy_undefined`). `std::shared_ptr` exchanges the pointer first |
| C107 | `UtcTime` and `ToUtcTime` on Linux call `mktime(gmtime(...))` (DateTime.Linux.cpp 96-112, 37-43): `gmtime` sets `tm_isdst` to 0, so the members are taken for standard time. While daylight saving time is in effect the date-time displayed is later than UTC by what is saved (one hour in Berlin, all summer). Conversions still cancel. |
| C108 | On Windows the internal value counts what is displayed, so in the hour that clocks show twice `ToUtcTime` of `LocalTime` is not `UtcTime` for one of the two times. |
| C109 | `InitWithGroup` adds to `ins` and `outs` while it checks the group, and does not clear them when it raises an Error. `nodes` is still empty, so the processor can be initialised again, and `Sort` then also uses the dependencies of the failed call (PartialOrdering.h 185-199) |
| C111 | the destructors of storages run in the reverse order of the first accesses (`static NAME` in `GetNAME`, GlobalStorage.h 100-105) and call finalisers (81-84), while `FinalizeGlobalStorage` runs them in the order of the first accesses: a storage accessed first by the initialiser of another one is destroyed before the finaliser of the other one uses it. Orders that are right for one of the two are wrong for the other. `FinalizeGlobalStorage` reads all storages ever accessed, so it is undefined in destructors of global variables, which run later |
| C113 | UnitTest.cpp 226-246 looks for delimiters among bytes: in code pages where the last byte of a character is that of a backslash (932, 936, 950), `/F:A.cpp` also executes a file whose name is `A.cpp` behind such a character; on Linux `/F:` with a name that the locale cannot represent executes nothing and is a success (`C113_violated_delimiter`, `C113_violated_lost`) |
| C114 | Dictionary.h 679-680 reads the numbers of keys once: if a callback removes keys from a group, an Error is raised in the middle of the join; 693-698 take keys that are neither less nor greater as equal, so keys that are not comparable are accepted (`C114_violated_change`, `C114_violated_unordered`) |
| C115 | GlobalStorage.cpp 27-35 has no handler: after an exception of a finaliser the storages registered later stay initialised; GlobalStorage.h 81-84 finalises in a destructor, where an exception terminates the program (`C115_violated_rest`, `C115_violated_exit`) |
