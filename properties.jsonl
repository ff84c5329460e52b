{"id": "C01", "title": "List behaves as a sequence", "statement": "After any sequence of Add, Insert, Set, Remove, RemoveAt, RemoveRange and Clear on a List (with non-negative RemoveRange counts; negative ones are the subject of C04), Count(), Get(i), IndexOf and Contains report exactly the elements of the mathematical sequence obtained by applying the same operations; an operation with an out-of-range argument raises an Error and leaves the list as it was. Growing and shrinking of the internal buffer is never observable.", "quantifier": "every element type value, every history of operations of any length, every index", "why_tests_cant": "The buffer takes different paths (reallocate, shift by overlapping move, shift by construction, shrink) depending on the history of capacities; tests visit finitely many histories.", "anchors": ["Source/Collections/List.h:List::Insert", "Source/Collections/List.h:ListBase::RemoveRange", "Source/Collections/List.h:memory_management::InsertUninitializedItems", "Source/Collections/List.h:memory_management::ReleaseUnnecessaryBuffer"]}
{"id": "C02", "title": "List never touches dead or foreign memory and never leaks", "statement": "In every history of List operations (with arguments that do not alias the list's own storage and with non-negative RemoveRange counts) each slot of the buffer is constructed only when raw, read/assigned/destroyed only when live, never accessed outside the allocated capacity, and destroying the list destroys every element exactly once and releases the buffer.", "quantifier": "every history of operations, every capacity reached", "why_tests_cant": "Lifetime errors in generic containers are silent for trivially copyable elements and depend on capacity/offset coincidences.", "anchors": ["Source/Collections/List.h:memory_management", "Source/Collections/List.h:ListBase", "Source/Collections/List.h:List"]}
{"id": "C03", "title": "Inserting a reference to the list's own element", "statement": "xs.Add(xs[i]) / xs.Insert(j, xs[i]) inserts a copy of the element that was at index i, for every list state (as for any other argument).", "quantifier": "every list content, every i and j, every capacity", "why_tests_cant": "Whether the referenced element is freed or overwritten before it is read depends on the capacity/index combination.", "anchors": ["Source/Collections/List.h:List::Insert(vint, const T&)", "Source/Collections/List.h:memory_management::InsertUninitializedItems"]}
{"id": "C04", "title": "RemoveRange rejects every invalid range", "statement": "RemoveRange(index, count) raises an Error whenever [index, index+count) is not a sub-range of the list, in particular for negative count; otherwise it removes exactly that range.", "quantifier": "every list, every pair of integers (index, count)", "why_tests_cant": "The arguments range over all pairs of 64-bit integers.", "anchors": ["Source/Collections/List.h:ListBase::RemoveRange"]}
{"id": "C05", "title": "Array indexing and Resize", "statement": "An Array of n elements accepts exactly indexes 0..n-1; Resize(m) keeps the first min(n,m) elements unchanged and the count becomes m; a negative size is an Error that leaves the array unchanged.", "quantifier": "every array content, every sizes n and m", "why_tests_cant": "Sizes and contents are unbounded.", "anchors": ["Source/Collections/List.h:Array::Resize", "Source/Collections/List.h:ArrayBase::Get", "Source/Collections/List.h:Array::Array"]}
{"id": "C06", "title": "SortedList stays sorted and keeps its multiset", "statement": "After any history of Add, Remove, RemoveAt, RemoveRange and Clear, the elements of a SortedList are in ascending order and form exactly the multiset of added minus removed elements; the index returned by Add is the position of the new element.", "quantifier": "every totally ordered element type, every history", "why_tests_cant": "Correctness of the binary search insertion point depends on all relative orders of all elements.", "anchors": ["Source/Collections/List.h:SortedList::IndexOfInternal", "Source/Collections/List.h:SortedList::AddInternal", "Source/Collections/List.h:SortedList::Remove"]}
{"id": "C07", "title": "SortedList search is complete", "statement": "Contains(x) is true exactly when an element equal to x is stored; IndexOf(x) returns an index of an equal element when there is one and -1 otherwise, and always terminates with every probe inside the list. (The documentation claims the first such index.)", "quantifier": "every sorted content of any length, every key", "why_tests_cant": "Binary-search boundary errors appear only for particular lengths and keys.", "anchors": ["Source/Collections/List.h:SortedList::IndexOfInternal", "Source/Collections/List.h:SortedList::IndexOf", "Source/Collections/List.h:SortedList::Contains"]}
{"id": "C08", "title": "Copying a container leaves the source unchanged", "statement": "Copy-constructing a container yields an equal container and leaves the source as it was.", "quantifier": "every container content", "why_tests_cant": "Ranges over all contents; a copy that steals looks right in tests that inspect only the copy.", "anchors": ["Source/Collections/List.h:SortedList::SortedList(const SortedList&)"]}
{"id": "C09", "title": "Dictionary is a finite map", "statement": "After any history of Add, Set, Remove and Clear, Keys() is strictly ascending, Count() is the number of distinct keys, Get(k) returns the value most recently stored for k, and Add of an existing key / Get of a missing key raises an Error and changes nothing; Remove reports whether the key was present.", "quantifier": "every history of operations, every key and value", "why_tests_cant": "Keys and values live in two parallel lists; desynchronisation needs particular histories.", "anchors": ["Source/Collections/Dictionary.h:Dictionary::AddInternal", "Source/Collections/Dictionary.h:Dictionary::SetInternal", "Source/Collections/Dictionary.h:Dictionary::Get", "Source/Collections/Dictionary.h:Dictionary::Remove"]}
{"id": "C10", "title": "Enumerating a dictionary", "statement": "Enumerating a Dictionary yields every stored pair once in ascending key order, Reset returns the enumerator to its starting position, and a cloned enumerator continues exactly as the original would.", "quantifier": "every dictionary, every position of the enumerator", "why_tests_cant": "Positions × contents are unbounded, and Reset/Clone are not exercised by plain loops.", "anchors": ["Source/Collections/Dictionary.h:Dictionary::Enumerator::Next", "Source/Collections/Dictionary.h:Dictionary::Enumerator::Reset", "Source/Collections/Dictionary.h:Dictionary::Enumerator::Clone", "Source/Collections/Dictionary.h:Dictionary::Enumerator::UpdateCurrent"]}
{"id": "C11", "title": "Group is a multimap", "statement": "After any history of Add, Remove(key), Remove(key,value) and Clear, a Group contains exactly the added minus removed values for each key in insertion order, keys with no values are absent, keys are strictly ascending, and Contains/Get/GetByIndex/Count agree with that.", "quantifier": "every history of operations, every key and value", "why_tests_cant": "The last-value removal must drop the key and free the value list in exactly one of the branches, for all histories.", "anchors": ["Source/Collections/Dictionary.h:Group::AddInternal", "Source/Collections/Dictionary.h:Group::Remove", "Source/Collections/Dictionary.h:Group::Contains", "Source/Collections/Dictionary.h:Group::Clear"]}
{"id": "C12", "title": "Group::Remove(key,value) reports whether a value was removed", "statement": "Remove(key, value) returns true exactly when the pair was present before the call, in which case exactly one occurrence is removed.", "quantifier": "every group, key and value", "why_tests_cant": "The wrong answer needs a key that exists with a value that does not.", "anchors": ["Source/Collections/Dictionary.h:Group::Remove(const KeyType&, const ValueType&)"]}
{"id": "C13", "title": "Enumerating a group", "statement": "Enumerating a Group yields each (key, value) pair once, ascending by key and in insertion order inside a key, with Index() counting 0,1,2,...; Reset restarts the enumeration.", "quantifier": "every group, every position", "why_tests_cant": "Nested positions over unbounded contents.", "anchors": ["Source/Collections/Dictionary.h:Group::Enumerator::Next", "Source/Collections/Dictionary.h:Group::Enumerator::Index", "Source/Collections/Dictionary.h:Group::Enumerator::Reset"]}
{"id": "C14", "title": "GroupInnerJoin is the sorted merge join", "statement": "GroupInnerJoin calls accept exactly once for each key in both groups with that key's value lists, discardFirst exactly for keys only in the first, discardSecond exactly for keys only in the second, all in ascending key order.", "quantifier": "every pair of groups produced by any histories", "why_tests_cant": "Merge loops fail at ends and ties only.", "anchors": ["Source/Collections/Dictionary.h:GroupInnerJoin"]}
{"id": "C15", "title": "Sort sorts", "statement": "Sort/SortLambda on any buffer with any comparison that is a total preorder terminates and leaves a permutation of the input in which no element is greater than a later one.", "quantifier": "every input length and content, every total preorder", "why_tests_cant": "n! orders × tie patterns for unbounded n.", "anchors": ["Source/Collections/Operation.h:SortLambda", "Source/Collections/Operation.h:Sort"]}
{"id": "C16", "title": "Sort is memory-safe and terminates for any comparator", "statement": "Even when the comparison is inconsistent (not transitive, not antisymmetric), sorting terminates, only accesses indexes inside the buffer, leaves a permutation of the input, and its recursion depth is at most log2(length)+1.", "quantifier": "every comparison function, every input length and content", "why_tests_cant": "Quantifies over arbitrary functions.", "anchors": ["Source/Collections/Operation.h:SortLambda"]}
{"id": "C17", "title": "Select, Where, Concat, Pairwise compute map, filter, append and zip", "statement": "Enumerating the result of Select/Where/Concat/Pairwise on any source(s) yields exactly map/filter/append/zip of the sources' elements, whenever and however often it is enumerated, with Index() equal to the position.", "quantifier": "every source enumerable, every selector and predicate, every nesting of operators", "why_tests_cant": "Operators nest arbitrarily deep; each enumerator keeps its own position state.", "anchors": ["Source/Collections/OperationSelect.h:SelectEnumerator", "Source/Collections/OperationWhere.h:WhereEnumerator", "Source/Collections/OperationConcat.h:ConcatEnumerator", "Source/Collections/OperationPair.h:PairwiseEnumerator"]}
{"id": "C18", "title": "Take and Skip", "statement": "xs.Take(n) yields the first max(0,n) elements and xs.Skip(n) everything after the first n, for every n >= 0 and every source, including a source that is itself the result of Skip, Take or any other operator.", "quantifier": "every source, every n, every nesting", "why_tests_cant": "Take decides by the Index() of the wrapped enumerator, so the answer depends on how the source reports Index() before the first Next.", "anchors": ["Source/Collections/OperationSequence.h:TakeEnumerator", "Source/Collections/OperationSequence.h:SkipEnumerator"]}
{"id": "C19", "title": "Repeat", "statement": "xs.Repeat(n) yields the elements of xs n times over.", "quantifier": "every source, every n >= 0", "why_tests_cant": "Unbounded n and source; needs Reset of every enumerator to be correct.", "anchors": ["Source/Collections/OperationSequence.h:RepeatEnumerator"]}
{"id": "C20", "title": "Distinct", "statement": "xs.Distinct() yields the first occurrence of each element, in source order, with no two equal elements.", "quantifier": "every source over a totally ordered type", "why_tests_cant": "All duplicate patterns.", "anchors": ["Source/Collections/OperationSequence.h:DistinctEnumerator"]}
{"id": "C21", "title": "Reverse", "statement": "xs.Reverse() yields the elements of xs in reverse order; reversing twice gives back xs.", "quantifier": "every source", "why_tests_cant": "Unbounded sources.", "anchors": ["Source/Collections/OperationSequence.h:ReverseEnumerator"]}
{"id": "C22", "title": "Intersect, Except and Union", "statement": "xs.Intersect(ys), xs.Except(ys), xs.Union(ys) yield, without duplicates and in order of first appearance, exactly the elements in both, in xs but not ys, and in either.", "quantifier": "every pair of sources", "why_tests_cant": "All overlap and duplicate patterns.", "anchors": ["Source/Collections/OperationSet.h:IntersectExceptEnumerator", "Source/Collections/Operation.h:LazyList::Intersect", "Source/Collections/Operation.h:LazyList::Except", "Source/Collections/Operation.h:LazyList::Union"]}
{"id": "C23", "title": "Aggregates", "statement": "Aggregate is the left fold; All, Any, Max, Min, First, Last, Count and IsEmpty return what their names say on every source; the variants without default raise an Error exactly on an empty source.", "quantifier": "every source, every predicate and fold function", "why_tests_cant": "Empty/one/many element cases over unbounded sources and arbitrary functions.", "anchors": ["Source/Collections/Operation.h:LazyList::Aggregate", "Source/Collections/Operation.h:LazyList::All", "Source/Collections/Operation.h:LazyList::Any", "Source/Collections/Operation.h:LazyList::Max", "Source/Collections/Operation.h:LazyList::Min", "Source/Collections/Operation.h:LazyList::First", "Source/Collections/Operation.h:LazyList::Last", "Source/Collections/Operation.h:LazyList::Count", "Source/Collections/Operation.h:LazyList::IsEmpty"]}
{"id": "C24", "title": "SelectMany and GroupBy", "statement": "SelectMany concatenates the selected sequences in source order; GroupBy yields one pair per distinct key in order of first appearance whose sequence is exactly the elements with that key in source order, so nothing is lost or duplicated.", "quantifier": "every source, every selector", "why_tests_cant": "Partition property over unbounded sources.", "anchors": ["Source/Collections/Operation.h:LazyList::SelectMany", "Source/Collections/Operation.h:LazyList::GroupBy"]}
{"id": "C25", "title": "OrderBy", "statement": "OrderBy/OrderByKey/OrderBySelf yields a permutation of the source sorted by the comparison/key and does not modify the source.", "quantifier": "every source, every key selector", "why_tests_cant": "All orders and ties.", "anchors": ["Source/Collections/Operation.h:LazyList::OrderBy", "Source/Collections/Operation.h:LazyList::OrderByKey", "Source/Collections/Operation.h:LazyList::OrderBySelf"]}
{"id": "C26", "title": "CompareEnumerable is a lexicographic total order", "statement": "CompareEnumerable returns equal exactly for element-wise equal sequences, orders a proper prefix before its extension, otherwise decides by the first differing pair; it is antisymmetric and transitive.", "quantifier": "every pair/triple of sequences", "why_tests_cant": "Order laws quantify over triples of unbounded sequences.", "anchors": ["Source/Collections/OperationEnumerable.h:CompareEnumerable"]}
{"id": "C27", "title": "Partial ordering finds exactly the strongly connected components", "statement": "After Sort, every item belongs to exactly one component, and two items are in the same component exactly when each depends (directly or transitively) on the other.", "quantifier": "every finite dependency graph (any size, cycles, self loops)", "why_tests_cant": "All finite graphs.", "anchors": ["Source/Collections/PartialOrdering.cpp:PartialOrderingProcessor::Sort", "Source/Collections/PartialOrdering.cpp:PartialOrderingProcessor::VisitUnvisitedNode", "Source/Collections/PartialOrdering.cpp:PartialOrderingProcessor::AssignUnassignedNode"]}
{"id": "C28", "title": "Partial ordering lists dependencies first", "statement": "If an item a depends on an item b in a different component, then b's component comes before a's component in the output.", "quantifier": "every finite dependency graph", "why_tests_cant": "All finite graphs.", "anchors": ["Source/Collections/PartialOrdering.cpp:PartialOrderingProcessor::Sort", "Source/Collections/PartialOrdering.h:PartialOrderingProcessor::InitWithGroup"]}
{"id": "C29", "title": "UTF-8 encode/decode round trip", "statement": "Encoding any non-surrogate code point up to 0x7FFFFFFF to UTF-8 code units and decoding these units returns the code point and consumes exactly the units produced; surrogates and larger values are rejected on encoding.", "quantifier": "every 32-bit value", "why_tests_cant": "2^32 inputs and every continuation of the text.", "anchors": ["Source/Strings/Conversion.cpp:UtfConversion<char8_t>::From32", "Source/Strings/Conversion.cpp:UtfConversion<char8_t>::To32"]}
{"id": "C30", "title": "UTF-16 encode/decode round trip", "statement": "Encoding a code point to UTF-16 succeeds exactly for non-surrogate values up to 0x10FFFF and decoding gives it back; every sequence of units that decodes successfully re-encodes to the same units.", "quantifier": "every 32-bit value, every pair of 16-bit units", "why_tests_cant": "2^32 values × pairs.", "anchors": ["Source/Strings/Conversion.cpp:UtfConversion<char16_t>::From32", "Source/Strings/Conversion.cpp:UtfConversion<char16_t>::To32"]}
{"id": "C31", "title": "UTF-16BE is byte-swapped UTF-16", "statement": "char16be_t conversions succeed exactly when the char16_t ones do, with each unit byte-swapped; swapping twice is the identity.", "quantifier": "every 32-bit value and unit sequence", "why_tests_cant": "2^32 values.", "anchors": ["Source/Strings/Conversion.cpp:UtfConversion<char16be_t>::From32", "Source/Strings/Conversion.cpp:UtfConversion<char16be_t>::To32", "Source/Strings/Conversion.cpp:SwapBytesForUtf16BE"]}
{"id": "C32", "title": "Whole-string conversion round trips", "statement": "Converting a string of valid non-zero code points to UTF-8/UTF-16 and back returns the same string, and u8<->u16 conversion goes through the same code points, for strings of every length.", "quantifier": "every string of valid code points", "why_tests_cant": "Unbounded strings; reader state carries across characters.", "anchors": ["Source/Strings/Conversion.cpp:u32tou8", "Source/Strings/Conversion.cpp:u8tou32", "Source/Strings/Conversion.cpp:u32tou16", "Source/Strings/Conversion.cpp:u16tou32", "Source/Strings/Conversion.h:encoding::UtfFrom32ReaderBase", "Source/Strings/Conversion.h:encoding::UtfTo32ReaderBase", "Source/Strings/Conversion.h:encoding::UtfToUtfReaderBase"]}
{"id": "C33", "title": "The conversion buffer is exactly large enough", "statement": "For every input, the length computed by the first (counting) pass equals the number of units written by the second pass including the terminator, so conversion never writes outside its buffer.", "quantifier": "every input buffer, valid or not", "why_tests_cant": "Needs all malformed inputs as well.", "anchors": ["Source/Strings/Conversion.cpp:_utftoutf_reader", "Source/Strings/Conversion.cpp:ConvertStringDirect"]}
{"id": "C34", "title": "Decoding rejects malformed input", "statement": "Decoding text that is not well formed in its encoding stops with an error instead of producing a code point; in particular UTF-8 with missing continuation bytes, stray continuation bytes or encoded surrogates is rejected.", "quantifier": "every byte sequence", "why_tests_cant": "All malformed sequences.", "anchors": ["Source/Strings/Conversion.cpp:UtfConversion<char8_t>::To32"]}
{"id": "C35", "title": "Reader source positions", "statement": "While decoding, the reported source cluster of each code point is contiguous: it starts where the previous one ended and its size is the number of source units consumed, so clusters partition the consumed input.", "quantifier": "every input", "why_tests_cant": "Unbounded inputs with multi-unit characters.", "anchors": ["Source/Strings/Conversion.h:encoding::UtfTo32ReaderBase", "Source/Strings/Conversion.h:encoding::UtfToUtfReaderBase"]}
{"id": "C36", "title": "String operations are sequence operations", "statement": "Left, Right, Sub, Remove, Insert, +, [] and IndexOf on strings return exactly the corresponding sub-sequence/concatenation/position of the character sequence, for strings that are themselves slices of other strings, and raise an Error exactly for out-of-range arguments.", "quantifier": "every string (slice or whole), every argument", "why_tests_cant": "Slices share buffers with arbitrary offsets.", "anchors": ["Source/Strings/String.h:ObjectString::Left", "Source/Strings/String.h:ObjectString::Right", "Source/Strings/String.h:ObjectString::Sub", "Source/Strings/String.h:ObjectString::Remove", "Source/Strings/String.h:ObjectString::Insert", "Source/Strings/String.h:ObjectString::ReplaceUnsafe", "Source/Strings/String.h:ObjectString::SubUnsafe"]}
{"id": "C37", "title": "Strings are immutable values", "statement": "No operation on one string object ever changes the characters observed through another string object, including slices sharing the same buffer, and Buffer() never changes the observed characters.", "quantifier": "every history of string operations over any number of string objects", "why_tests_cant": "Aliasing between arbitrarily many slices.", "anchors": ["Source/Strings/String.h:ObjectString::Buffer", "Source/Strings/String.h:ObjectString::operator=", "Source/Strings/String.h:ObjectString::Dec"]}
{"id": "C38", "title": "String buffers are freed exactly once, when unused", "statement": "In every history of creating, copying, moving, slicing, assigning and destroying strings, a shared buffer is alive as long as some string refers to it and is released exactly once when the last one goes away.", "quantifier": "every history over any number of string objects", "why_tests_cant": "Unbounded histories.", "anchors": ["Source/Strings/String.h:ObjectString::Inc", "Source/Strings/String.h:ObjectString::Dec", "Source/Strings/String.h:ObjectString::operator="]}
{"id": "C39", "title": "Buffer() is zero-terminated", "statement": "Buffer() returns a pointer to the string's characters followed by a zero, for every string including slices.", "quantifier": "every string", "why_tests_cant": "Slices with arbitrary offset and length.", "anchors": ["Source/Strings/String.h:ObjectString::Buffer"]}
{"id": "C40", "title": "String comparison is a total order consistent with equality", "statement": "a <=> b is equal exactly when the character sequences are equal; it is antisymmetric, transitive and total; comparison never reads outside either string.", "quantifier": "every pair/triple of strings (slice or whole)", "why_tests_cant": "Order laws over triples of unbounded strings.", "anchors": ["Source/Strings/String.h:ObjectString::operator<=>"]}
{"id": "C41", "title": "Integer to string and back", "statement": "Parsing the string produced for an integer gives the integer back, for each of the signed/unsigned 32/64-bit conversions over the whole range of its type.", "quantifier": "every integer of the type", "why_tests_cant": "2^64 inputs.", "anchors": ["Source/Strings/String.cpp:itoa", "Source/Strings/String.cpp:atoi_test", "Source/Strings/String.cpp:i64toa", "Source/Strings/String.cpp:atoi64_test", "Source/Strings/String.cpp:utoa", "Source/Strings/String.cpp:atou_test", "Source/Strings/String.cpp:u64toa", "Source/Strings/String.cpp:atou64_test"]}
{"id": "C42", "title": "Integer parsing accepts exactly canonical numerals", "statement": "atoi_test & co. report success exactly for the canonical decimal representation of a number in range (no spaces, plus signs, leading zeros, trailing text, or overflow), and then return that number; otherwise the value functions return 0.", "quantifier": "every string", "why_tests_cant": "All strings.", "anchors": ["Source/Strings/String.cpp:atoi_test", "Source/Strings/String.cpp:atoi64_test", "Source/Strings/String.cpp:atou_test", "Source/Strings/String.cpp:atou64_test"]}
{"id": "C43", "title": "Shared pointers: alive while referenced, deleted once", "statement": "In every history of creating, copying, moving, assigning, nulling and destroying shared pointers, an object is alive while any pointer refers to it, is deleted exactly once when the last one lets go, and its counter equals the number of pointers.", "quantifier": "every history over any number of pointers and objects, including objects that own pointers", "why_tests_cant": "Unbounded histories and object graphs.", "anchors": ["Source/Primitives/Pointer.h:Ptr"]}
{"id": "C44", "title": "Assigning from a pointer owned by the released object", "statement": "p = q is safe when q is a member of the object p currently owns (for example head = head->next).", "quantifier": "every object graph", "why_tests_cant": "Needs the graph where the source slot lives in the object being released.", "anchors": ["Source/Primitives/Pointer.h:Ptr::operator="]}
{"id": "C45", "title": "Detach", "statement": "Detach gives up this pointer's reference without deleting the object: afterwards this pointer is empty and other pointers to the same object stay valid.", "quantifier": "every number of sharing pointers", "why_tests_cant": "Depends on the sharing count.", "anchors": ["Source/Primitives/Pointer.h:Ptr::Detach", "Source/Primitives/Pointer.h:Ptr::Dec"]}
{"id": "C46", "title": "Reference counting under every thread schedule", "statement": "When threads copy and destroy their own shared pointers to one object concurrently, for every interleaving of the atomic counter steps exactly one thread deletes the object, and only after every other pointer is gone.", "quantifier": "every number of threads, every program of copy/destroy operations, every schedule", "why_tests_cant": "Schedules cannot be enumerated by tests.", "anchors": ["Source/Primitives/Pointer.h:Ptr::Inc", "Source/Primitives/Pointer.h:Ptr::Dec", "Source/Basic.h:INCRC"]}
{"id": "C47", "title": "Nullable holds zero or one value with correct lifetime", "statement": "In every history of construction, assignment, move, Reset and destruction, including operations interrupted by an exception of the element's constructor or assignment, the contained object is constructed and destroyed exactly once and Value()/bool/==/<=> behave as an optional value with null smallest; moving leaves the source null, and a failed operation changes nothing but its target and the source of a move.", "quantifier": "every history, every failure point", "why_tests_cant": "Histories mixing move/copy/reset.", "anchors": ["Source/Primitives/Nullable.h:Nullable"]}
{"id": "C48", "title": "Variant always holds exactly one live alternative", "statement": "In every history of construction, assignment, Set and destruction, exactly one alternative is alive, Index() names it, Get/TryGet/Apply access only it, and every alternative is destroyed exactly once, even when copying an element fails.", "quantifier": "every history, every failure point", "why_tests_cant": "Crash points inside assignments.", "anchors": ["Source/Primitives/Variant.h:Variant", "Source/Primitives/Variant.h:variant_internal::VariantElementPack"]}
{"id": "C49", "title": "Events call every attached handler exactly once", "statement": "After any history of Add and Remove, raising the event calls exactly the attached handlers once each, IsAttached tells whether a handler is attached, and Remove succeeds exactly for attached handlers of this event.", "quantifier": "every history, every number of handlers", "why_tests_cant": "Handlers are stored sorted by address, so order and search depend on the allocator.", "anchors": ["Source/Primitives/Event.h:Event"]}
{"id": "C50", "title": "Every event handler receives the arguments of the call", "statement": "All handlers of an event receive the same argument values, whether the caller passes lvalues or temporaries.", "quantifier": "every number of handlers, every argument passing mode", "why_tests_cant": "Needs several handlers and movable temporaries.", "anchors": ["Source/Primitives/Event.h:Event::operator()"]}
{"id": "C51", "title": "Global storages are initialised once and finalised once", "statement": "In every history of accesses and FinalizeGlobalStorage calls, each storage's initialiser runs before first use and never twice without a finaliser in between; after FinalizeGlobalStorage no storage is initialised and each initialised one was finalised exactly once.", "quantifier": "every set of storages, every history", "why_tests_cant": "Histories over any number of storages, and finalisers that touch other storages.", "anchors": ["Source/GlobalStorage.cpp:FinalizeGlobalStorage", "Source/GlobalStorage.cpp:GlobalStorage::EnsureInitialized", "Source/GlobalStorage.cpp:GlobalStorage::EnsureFinalized", "Source/GlobalStorage.cpp:RegisterStorageDescriptor"]}
{"id": "C52", "title": "The test runner's verdict is sound", "statement": "With failures suppressed, the test program returns 0 exactly when no executed test file contains a failed assertion, an escaping exception or an illegal nesting; a failure never prevents the remaining cases of the same category from running; counts of passed/total cases agree.", "quantifier": "every tree of files, categories and cases", "why_tests_cant": "Self-verdict over all nested test trees.", "anchors": ["Source/UnitTest/UnitTest.cpp:UnitTest::RunAndDisposeTests", "Source/UnitTest/UnitTest.cpp:UnitTest::RunCategoryOrCase"]}
{"id": "C53", "title": "Date-time representation", "statement": "Forward and Backward by the same amount cancel, splitting and joining the internal value loses nothing, and an earlier date-time has a smaller internal value.", "quantifier": "every representable time and delta", "why_tests_cant": "2^64 values.", "anchors": ["Source/Primitives/DateTime.Linux.cpp:LinuxDateTimeImpl", "Source/Primitives/DateTime.cpp:DateTime"]}
{"id": "C54", "title": "LoremIpsum stays inside its buffer", "statement": "LoremIpsum(n) terminates for every n and starting word, never writes outside its buffer, and its length differs from max(n,0) by less than one word.", "quantifier": "every requested length, every starting word", "why_tests_cant": "All lengths and word phases.", "anchors": ["Source/Strings/LoremIpsum.cpp:LoremIpsum"]}
{"id": "C55", "title": "PushOnlyAllocator pointers are stable and distinct", "statement": "Every Create returns a fresh pointer that stays valid and distinct from all other created objects for the allocator's lifetime; Get(i) returns the i-th created object, and null for i beyond.", "quantifier": "every block size > 0, every number of creations", "why_tests_cant": "Block boundary arithmetic for all sizes.", "anchors": ["Source/Collections/List.h:PushOnlyAllocator"]}
{"id": "C56", "title": "ByteObjectMap is a byte-indexed map", "statement": "After any history of Set, Get(b) returns the object most recently stored for byte b or null, and storing under one byte never affects another.", "quantifier": "every history, every byte", "why_tests_cant": "All histories over a 4-level tree.", "anchors": ["Source/Collections/List.h:ByteObjectMap"]}
{"id": "C57", "title": "CopyFrom", "statement": "CopyFrom(ds, ss) makes ds hold the elements of ss, with append they are added after the existing ones, for every kind of target and source container not sharing storage.", "quantifier": "every source and target content", "why_tests_cant": "Four algorithms over unbounded contents.", "anchors": ["Source/Collections/OperationCopyFrom.h:CopyFrom"]}
{"id": "C58", "title": "Wide-character case conversion", "statement": "wlower/wupper map every character by the platform's case mapping and keep the others unchanged.", "quantifier": "every string", "why_tests_cant": "All code points.", "anchors": ["Source/Strings/String.cpp:_wcslwr_s", "Source/Strings/String.cpp:_wcsupr_s", "Source/Strings/String.cpp:wlower", "Source/Strings/String.cpp:wupper"]}
{"id": "C59", "title": "Pair and Tuple ordering", "statement": "Pairs and tuples compare lexicographically, == agrees with <=> being equal, and the ordering is total whenever the element orderings are.", "quantifier": "every arity, every element values", "why_tests_cant": "All arities and triples of values.", "anchors": ["Source/Collections/Pair.h:Pair", "Source/Primitives/Tuple.h:TupleBase::Compare"]}
{"id": "C60", "title": "Cloned enumerators are independent and equivalent", "statement": "Cloning an enumerator at any moment gives an enumerator with the same current position that yields the same remaining elements, and advancing one does not affect the other.", "quantifier": "every enumerator kind and nesting, every position", "why_tests_cant": "Positions × nesting.", "anchors": ["Source/Collections/OperationSequence.h:TakeEnumerator::Clone", "Source/Collections/OperationSequence.h:DistinctEnumerator", "Source/Collections/OperationSequence.h:ReverseEnumerator", "Source/Collections/OperationEnumerable.h:RangeEnumerator::Clone"]}
{"id": "C61", "title": "Category of the comparison of pairs and tuples", "statement": "The type of the result of <=> on pairs and tuples is the weakest of the orderings of the elements: strong if all elements are strongly ordered, weak if one is weak and none partial, partial if one is partial.", "quantifier": "every list of element categories", "why_tests_cant": "Every combination of categories at every arity; a wrong category is visible only in generic code.", "anchors": ["Source/Basic.h:ordering_decision::OrderingSelection", "Source/Basic.h:OrderingOf"]}
{"id": "C62", "title": "Date members", "statement": "FromDateTime of a date and time that exists returns exactly these members and the right day of the week, and FromOSInternal of its internal value returns the same DateTime.", "quantifier": "every date of the Gregorian calendar that the internal value can express", "why_tests_cant": "Every day, second and millisecond of millions of years.", "anchors": ["Source/Primitives/DateTime.Linux.cpp:ConvertTMToDateTime", "Source/Primitives/DateTime.Linux.cpp:FromDateTime", "Source/Primitives/DateTime.Linux.cpp:FromOSInternal"]}
{"id": "C63", "title": "UTC and local time cancel", "statement": "ToUtcTime and ToLocalTime cancel in both orders, where local time has a fixed distance from UTC.", "quantifier": "every internal value and every distance", "why_tests_cant": "2^64 values, all distances, including wrap-around.", "anchors": ["Source/Primitives/DateTime.Linux.cpp:LocalToUtcTime", "Source/Primitives/DateTime.Linux.cpp:UtcToLocalTime"]}
{"id": "C64", "title": "LoremIpsumParagraph", "statement": "LoremIpsumParagraph(n) terminates whatever rand() returns, its length differs from max(n,0) by at most 12, and a text that is not empty ends with a period.", "quantifier": "every requested length, every sequence of random numbers, every starting word", "why_tests_cant": "All sequences of random numbers.", "anchors": ["Source/Strings/LoremIpsum.cpp:LoremIpsumParagraph"]}
{"id": "C65", "title": "PartialOrderingProcessor: sub classes", "statement": "After InitWithSubClass(items, depGroup, subClasses) every index of items is listed (firstSubClassItem, subClassItemCount) by exactly one node; two items are listed by the same node exactly if subClasses maps both to equal sub classes; node a has node b in ins (and b has a in outs), once, exactly if an item of a depends on an item of b. Sort then yields the strongly connected components of the nodes, dependencies first. If depGroup or subClasses mentions an object that is not in items, an Error is raised.", "quantifier": "every list of pairwise different items, every depGroup and subClasses, every element type and sub class type with a total order", "why_tests_cant": "All relations and all divisions into sub classes.", "anchors": ["Source/Collections/PartialOrdering.h:InitWithSubClass", "Source/Collections/PartialOrdering.cpp:InitNodes", "Source/Collections/PartialOrdering.cpp:Sort"]}
{"id": "C66", "title": "Func calls what it was made from", "statement": "After any sequence of constructions of Func (from functions, methods, functor objects, pointers to functions and Funcs of other signatures, as lvalue or rvalue), copies, moves, assignments and destructions: calling a Func calls what it was made from exactly once, with the (converted) arguments, and returns its (converted) result; copies share the state of a functor object; a Func converted from a null Func is null, a Func that was moved to a new Func is null, an assigned rvalue keeps its value; operator bool tells null, == tells whether both come from the same construction. A functor object is destroyed exactly when no Func holds it, directly or inside of another one.", "quantifier": "every history, every behaviour of the functions (state, globals), every argument, every depth of conversion", "why_tests_cant": "Histories and nesting of conversions are unbounded.", "anchors": ["Source/Primitives/Function.h:Func", "Source/Primitives/Function.h:StaticInvoker", "Source/Primitives/Function.h:MemberInvoker", "Source/Primitives/Function.h:ObjectInvoker"]}
{"id": "C67", "title": "A non-null Func can be called", "statement": "If operator bool of a Func returns true, calling it is not undefined behaviour (as long as what it refers to exists).", "quantifier": "every history of constructions, copies, moves, assignments and calls; every argument", "why_tests_cant": "All histories; the tests make no Func from a null function pointer.", "anchors": ["Source/Primitives/Function.h:Func", "Source/Primitives/Function.h:operator bool"]}
{"id": "C68", "title": "A functor stays alive while it is running", "statement": "A functor object called through a Func may assign to variables of type Func, including the one it was called through, and still use what it has captured until it returns.", "quantifier": "every history before the call, every sequence of operations on variables of type Func during the call", "why_tests_cant": "A use of a deleted object may go unnoticed; all states and sequences.", "anchors": ["Source/Primitives/Function.h:operator()", "Source/Primitives/Function.h:ObjectInvoker"]}
{"id": "C69", "title": "ftoa writes the nearest number with six decimals", "statement": "For every finite double, ftoa stays within its buffer and returns the canonical numeral (minus sign exactly for a set sign bit, no superfluous zeros, no trailing period) of the number with six decimals nearest to the argument, ties to even; infinities and NaNs give 'inf' and 'nan' with their sign.", "quantifier": "every double", "why_tests_cant": "There are 2^64 doubles, and the longest texts, the ties and the texts that end with zeros are rare among them.", "anchors": ["Source/Strings/String.cpp:ftoa", "Source/Strings/String.cpp:_gcvt_s"]}
{"id": "C70", "title": "Floating point numbers survive ftoa and atof", "statement": "atof(ftoa(x)) == x for every finite double x, and ftoa(atof(t)) == t for every canonical numeral t with at most six decimals below 2^33.", "quantifier": "every finite double, every such numeral", "why_tests_cant": "2^64 doubles, about 10^16 numerals.", "anchors": ["Source/Strings/String.cpp:ftoa", "Source/Strings/String.cpp:atof"]}
{"id": "C71", "title": "atof_test accepts exactly floating point numerals", "statement": "atof_test sets success exactly if the whole string is a floating point numeral, and then returns the nearest double (ties to even, infinity above the range); atof returns 0 for everything else.", "quantifier": "every string without the letters of inf, nan and 0x", "why_tests_cant": "Unboundedly many strings; the rounding has to be right for all of them.", "anchors": ["Source/Strings/String.cpp:atof_test", "Source/Strings/String.cpp:wtof_test", "Source/Strings/String.cpp:atof"]}
{"id": "C72", "title": "alower and aupper map every character", "statement": "alower and aupper return a string of the same length in which every character is replaced by what tolower or toupper gives for it.", "quantifier": "every string, every locale", "why_tests_cant": "Unboundedly many strings; the argument outside the domain of tolower often works by accident.", "anchors": ["Source/Strings/String.cpp:alower", "Source/Strings/String.cpp:aupper", "Source/Strings/String.cpp:_strlwr_s", "Source/Strings/String.cpp:_strupr_s"]}
{"id": "C73", "title": "ComPtr: every reference is released exactly once", "statement": "In every history of creating COM objects, AddRef/Release on plain pointers, and constructing, copying, moving, assigning, nulling and destroying ComPtrs, no released memory is used, each shared counter equals the number of ComPtrs that share it, the reference count of each object equals the number of plain references plus the number of shared counters for it, and counters and objects are deleted exactly when nothing refers to them any more.", "quantifier": "every history over any number of ComPtrs, plain pointers and objects, including objects that have ComPtrs as members", "why_tests_cant": "Unbounded histories and object graphs.", "anchors": ["Source/Primitives/Pointer.h:ComPtr"]}
{"id": "C74", "title": "Assigning a ComPtr from a member of the object it releases", "statement": "p = q and p = std::move(q) are safe when q is a ComPtr member of the object p refers to (for example head = head->next).", "quantifier": "every object graph", "why_tests_cant": "Needs the graph where the source lives in the object being released.", "anchors": ["Source/Primitives/Pointer.h:ComPtr::operator="]}
{"id": "C75", "title": "Range-based for loops visit every element and delete their enumerator", "statement": "A range-based for loop over an enumerable (also with indexed) runs its body once for each element in order, with the position of the element as index, until the elements end, the body breaks or throws, or Next raises an Error; however the loop is left, the enumerator it created is deleted exactly once, also when loops are nested.", "quantifier": "every enumerable, every body (including nested loops), every way to leave the loop", "why_tests_cant": "Unboundedly many collections, bodies, nestings and points of failure; a leak is not visible in a result.", "anchors": ["Source/Collections/OperationForEach.h:RangeBasedForLoopIterator", "Source/Collections/OperationForEach.h:RangeBasedForLoopIteratorWithIndex", "Source/Collections/Operation.h:LazyListWithIndex"]}
{"id": "C76", "title": "Dictionaries in memory: member functions, moves and destruction without undefined behaviour or leaks", "statement": "In every program over any number of dictionaries that calls Set, Add, Get, Remove, Clear, Contains and Count, move-constructs and move-assigns dictionaries (also to themselves) and destroys them, no memory outside or without an object is read, nothing is leaked, every result is that of the same program over finite maps where a moved-from map is empty, and every dictionary stores its keys in strictly ascending order with its values at the same positions.", "quantifier": "every key order, every program, any number of dictionaries", "why_tests_cant": "Unboundedly many programs; reading a dead object or a leak need not change any observed result.", "anchors": ["Source/Collections/Dictionary.h:Dictionary", "Source/Collections/List.h:ListBase::operator=", "Source/Collections/List.h:SortedList"]}
{"id": "C77", "title": "Dictionary::Set and Add accept a reference to an own value", "statement": "d.Set(k, d[k2]) and d.Add(k, d[k2]) store for k the value that k2 had before the call.", "quantifier": "every dictionary, every k and every present k2", "why_tests_cant": "Depends on the spare capacity of the buffer and on the positions of both keys; a stale reference often reads a plausible value.", "anchors": ["Source/Collections/Dictionary.h:SetInternal", "Source/Collections/Dictionary.h:AddInternal", "Source/Collections/List.h:List::Insert"]}
{"id": "C78", "title": "Arrays in memory: construction, member functions, moves and destruction without undefined behaviour or leaks", "statement": "In every program over any number of Arrays that constructs them by size or from a source, calls Set, Get, Count, IndexOf and Resize, move-constructs and move-assigns arrays (also to themselves) and destroys them, and that reads no element which was never given a value: no memory outside or without an object is used, nothing is constructed, destroyed or released twice, every result is that of the same program over sequences where a moved-from array is empty, at every point exactly the buffers of the arrays are allocated and hold exactly their elements, and nothing is left when the arrays are destroyed.", "quantifier": "every element type, every program, any number of arrays", "why_tests_cant": "Unboundedly many programs; a leak or the use of a released buffer need not change any observed result.", "anchors": ["Source/Collections/List.h:Array::Array", "Source/Collections/List.h:Array::~Array", "Source/Collections/List.h:Array::operator=", "Source/Collections/List.h:Array::Resize", "Source/Collections/List.h:memory_management"]}
{"id": "C79", "title": "Groups in memory: member functions, moves and destruction without undefined behaviour or leaks", "statement": "In every program over any number of Groups that calls Add, Get, Contains, Remove (by key and by key and value) and Clear, move-constructs and move-assigns groups (also to themselves) and destroys them: no released memory and no deleted value list is used, no value list is deleted twice, nothing is constructed, destroyed or released twice; results are those of the same program over multimaps where a moved-from group is empty; at every point there is exactly one value list per key of a group, shared with nobody, and exactly the buffers of the groups and their value lists are allocated and hold exactly their entries, keys ascending; and nothing is left when the groups are destroyed.", "quantifier": "every total preorder of keys, every equality of values, every program, any number of groups", "why_tests_cant": "Unboundedly many programs; a leaked value list, a list deleted twice or the use of a released buffer need not change any observed result.", "anchors": ["Source/Collections/Dictionary.h:Group::AddInternal", "Source/Collections/Dictionary.h:Group::Remove", "Source/Collections/Dictionary.h:Group::Clear", "Source/Collections/Dictionary.h:Group::operator=", "Source/Collections/Dictionary.h:Group::~Group"]}
{"id": "C80", "title": "Calls on groups accept references to elements of groups", "statement": "For every call on a Group (Add, Get, Contains, Remove by key and by key and value) whose const& arguments are the caller's objects, keys g.Keys()[n] or values g[k][m] of any group, including the group called: the call has the effect and result it has with copies of these arguments; an argument that does not exist raises an error and changes nothing.", "quantifier": "every total preorder of keys, every state reachable by programs over any number of groups, every call and all arguments", "why_tests_cant": "Whether a reference survives depends on reallocation of the right one of several buffers; a stale reference often still reads a plausible value.", "anchors": ["Source/Collections/Dictionary.h:Group::AddInternal", "Source/Collections/Dictionary.h:Group::Remove", "Source/Collections/Dictionary.h:Group::Contains", "Source/Collections/List.h:List::Insert", "Source/Collections/List.h:SortedList::AddInternal"]}
{"id": "C81", "title": "Containers survive exceptions thrown by their elements", "statement": "When copying, assigning or constructing an element throws during a call on a List, a SortedList or an Array (Add, Insert, Set, Resize, the constructors of Array), the exception reaches the caller, the container is what it was before the call (except for the element that was being assigned to, and a container whose constructor threw does not exist), every later call and the destruction of the container are defined, and no memory is lost.", "quantifier": "every program over any number of containers with moves and destructions, every choice of which element operation of which call throws and of what a failed assignment leaves behind; elements whose moves and destructors do not throw", "why_tests_cant": "Tests use elements that do not throw; the number of points at which an element can throw grows with every call, and the damage shows only when the container is used or destroyed later.", "anchors": ["Source/Collections/List.h:memory_management::InsertUninitializedItems", "Source/Collections/List.h:List::Insert", "Source/Collections/List.h:SortedList::Insert", "Source/Collections/List.h:List::Set", "Source/Collections/List.h:Array::Resize", "Source/Collections/List.h:Array::Array"]}
{"id": "C82", "title": "All conversions between string classes on every platform", "statement": "For every two different classes among U8String, U16String, U32String and WString, in both configurations of wchar_t (UTF-16 and UTF-32): converting the form of a text in one class gives the form of the same text in the other class. Classes with the same units on the platform are converted unit by unit, whatever their content.", "quantifier": "all platforms, all pairs of classes, all sequences of Unicode scalar values other than U+0000, all memory after the terminator", "why_tests_cant": "Tests run on one platform and sample texts; the claim covers both configurations of wchar_t and all texts.", "anchors": ["Source/Strings/Conversion.cpp:26-45", "Source/Strings/Conversion.cpp:338-367", "Source/Strings/Conversion.h:64-75", "Source/Strings/Conversion.h:340-376"]}
{"id": "C83", "title": "Conversions between wide strings and strings of char", "statement": "wtoa returns the multibyte form of the whole text, or the empty string if some character cannot be represented; atow returns the characters of a multibyte text, or the empty string if it is malformed. Neither accesses memory outside of the text and of the new string, and atow(wtoa(s)) is s for every representable s.", "quantifier": "all stateless multibyte encodings of the C library, all texts", "why_tests_cant": "The claim holds for every encoding that the locale may select and for every text, including the exact fit of the buffer that wcstombs fills without terminator.", "anchors": ["Source/Strings/Conversion.Linux.cpp:17-25", "Source/Strings/Conversion.cpp:328-337", "Source/Strings/Conversion.cpp:354-355"]}
{"id": "C84", "title": "Date-times on Windows", "statement": "On Windows, DateTime::FromDateTime of an existing date and time in the years 1601 to 30827 has those members, the right day of the week, and an internal value that counts 100-nanosecond intervals since 1601-01-01; osMilliseconds is that value in milliseconds; FromOSInternal of the internal value gives the same date-time; internal values order date-times by time; Forward and Backward move by the given number of milliseconds and cancel, ToLocalTime and ToUtcTime move by the offset of the time zone and cancel, as long as the results stay in the range; no call uses an uninitialised variable.", "quantifier": "all moments, all internal values of 64 bits, all numbers of milliseconds, all offsets of the time zone", "why_tests_cant": "The claim covers every date in more than 29000 years and every internal value; the tests check a handful of dates of one platform.", "anchors": ["Source/Primitives/DateTime.Windows.cpp:25-140", "Source/Primitives/DateTime.cpp:38-66"]}
{"id": "C85", "title": "Enumerators stay usable while their containers change", "statement": "In every program over any number of containers on one heap and any number of enumerators of them, in which calls of Next, Current, Index, Reset and Clone on the enumerators and all operations on the containers (member functions, moves, destruction) alternate in any order: no undefined behaviour. An enumerator of a List, SortedList or Array is a position: Next tells whether the container has an element at the next position now, Current returns the element that is there now or raises an error. Next of an enumerator of a Dictionary goes to the entry that is at the next position now in ascending order of keys, and Current returns it. Next of an enumerator of a Group returns; it goes to the first value after its position that the Group has now, in ascending order of keys and in the order of the values of each key, or returns false if there is none; Current returns the key and the value there, and Index the number of values before it.", "quantifier": "all programs of any length, all element types, all orders of keys, all moved-from states, all numbers of containers and enumerators", "why_tests_cant": "Tests enumerate containers that do not change, and reading released memory usually seems to work; the orders in which changes and enumeration can alternate are unbounded.", "anchors": ["Source/Collections/List.h:220-274", "Source/Collections/Dictionary.h:29-82", "Source/Collections/Interfaces.h:34-70", "Source/Collections/Dictionary.h:281-370"]}
{"id": "C86", "title": "When lazy lists call the functions given to them", "statement": "The functions given to lazy lists may change anything, depend on anything and throw. Making a lazy list with Select, Where, Concat, Pairwise, Take, Skip, Repeat and Distinct calls none of them; Reverse, Intersect, Except, SelectMany and Evaluate compute what they need once. Only Next calls functions: exactly those that are necessary to get to the next element, in the order of the elements, once for each enumeration; an exception passes through, and after Reset the enumerator starts again. This holds for any number of enumerators that are created, cloned, used in turn and reset. First and IsEmpty compute one element, Take(n) computes n elements, Count, Last, Aggregate, loops and copying compute each element once; All and Any call the function for each element. If Evaluated returns true, nothing is called any more.", "quantifier": "all programs made of lazy list functions, all functions over any world, all programs that use enumerators, all worlds", "why_tests_cant": "Tests use functions without effects, so that calls that are superfluous, missing, repeated or in another order cannot be seen; the programs, the functions and the ways to use enumerators are unbounded.", "anchors": ["Source/Collections/Operation.h:225-944", "Source/Collections/OperationSelect.h:22-73", "Source/Collections/OperationWhere.h:20-73", "Source/Collections/OperationSequence.h:23-332", "Source/Collections/OperationCopyFrom.h:62-103"]}
{"id": "C87", "title": "Callbacks of an event may use events", "statement": "While an event is being raised, callbacks may add handlers to it, remove handlers from it, ask handlers, raise the same or other events, and throw. Every operation answers and acts as it does outside of callbacks, and whoever is called is attached at that time. For every raise that ends, nested or not: if nothing is added to the event meanwhile then no handler is called twice and only those attached at the beginning are called; if nothing is removed from it and no callback throws then every handler attached at the beginning is called; an exception of a callback ends the raise at once and reaches the program, and the events stay usable. Undefined behaviour arises only when the program gives up its pointer to a handler that is detached while its callback is running.", "quantifier": "every program, every set of callbacks (with state, catching exceptions), every nesting of raises, every choice of addresses by the allocator", "why_tests_cant": "Which handlers are shifted depends on the addresses that the allocator chooses; callbacks, nesting and programs are unbounded.", "anchors": ["Source/Primitives/Event.h:Event::operator()", "Source/Primitives/Event.h:Event::Add", "Source/Primitives/Event.h:Event::Remove"]}
{"id": "C88", "title": "Copying between strings and containers", "statement": "CopyFrom(container, string, append) gives the container exactly the characters of the string (after its own elements with append, otherwise instead of them), also for strings that are parts of other strings, contain zeros or are empty, and leaves all strings as they are. CopyFrom(string, container, append) makes the string the sequence of the elements of the container (after its own characters with append), for every kind of source; other strings stay as they are, also those that shared its buffer, and nothing uninitialised is read. If the source raises an error, all strings stay as they are.", "quantifier": "every history of operations on any number of strings, every string, every source that yields any sequence, both values of append", "why_tests_cant": "Which strings share buffers depends on the history; histories, sequences and sources are unbounded.", "anchors": ["Source/Collections/OperationString.h:CopyFrom"]}
{"id": "C89", "title": "Tuples and pairs own their values and refer to what they were given", "statement": "An element of Tuple or Pair that is a value is an object of its own, initialised with the value given for it; an element that is a reference is the very object given for it, so that writes through one are seen through the other and addresses are equal. Making a tuple from another one or assigning one to it gives each value the value that the element of the other tuple had and lets each reference denote the object that is the element of the other tuple; moving may change only values inside the tuple moved from. No undefined behaviour happens as long as the program uses no reference to an object that is gone, every object is destroyed exactly once, and nothing is left when all tuples and variables are gone.", "quantifier": "every program (any number of variables and tuples of any size and any mixture of values, references and constant references; any sequence of constructions, copies, moves, assignments, reads, writes and ends of scopes)", "why_tests_cant": "Aliasing between tuples, elements and variables has unboundedly many shapes, and a wrong alias or a moved-from object shows only in some of them.", "anchors": ["Source/Primitives/Tuple.h:TupleElement", "Source/Primitives/Tuple.h:TupleBase", "Source/Primitives/Tuple.h:Tuple", "Source/Collections/Pair.h:Pair"]}
{"id": "C90", "title": "Errors in lazy lists reach the reader; copied and moved lazy lists", "statement": "If computing an element of a lazy list raises an Error, building the list and further operators on it raises nothing; a function that reads the list raises the Error exactly if it gets to this element: Aggregate, Last, Count, All, Any, copying, OrderBy, Reverse and Evaluate(true) always, First and IsEmpty only for the first element, Take(n) only for the first n elements, CompareEnumerable only if it is not decided before. An Error is never taken for the end of the sequence. A copy of a lazy list holds the same sequence as the original, also after the original was assigned to or moved from; a lazy list moved from is empty.", "quantifier": "every program of Select (with a function that may raise Errors), Where, Concat, Pairwise, Take and Skip over every source; every sequence of declarations, copies, moves and assignments of variables", "why_tests_cant": "Positions of the Error, nesting of operators and sources are unbounded.", "anchors": ["Source/Collections/Operation.h:LazyList::First", "Source/Collections/Operation.h:LazyList::Count", "Source/Collections/Operation.h:LazyList::LazyList", "Source/Collections/OperationEnumerable.h:CompareEnumerable", "Source/Collections/OperationSelect.h:SelectEnumerator::Next"]}
{"id": "C91", "title": "Dictionaries and groups survive exceptions thrown by their keys and values", "statement": "When copying or assigning a key or a value throws during Add or Set of a Dictionary or Add of a Group, the exception reaches the caller, the container has the entries it had before the call (except for a value that was being assigned to, which is what the assignment left), every later call and the destruction of the container are defined, and no memory is lost.", "quantifier": "every total preorder of keys, every program over any number of containers with calls, moves and destructions, every choice of the calls during which the copy of the key or of the value throws, and of what a failed assignment leaves behind; moves, comparisons and destructors do not throw", "why_tests_cant": "Tests use keys and values that do not throw; whether a key is present when the copy throws, and the programs before and after, are unbounded.", "anchors": ["Source/Collections/Dictionary.h:Dictionary::SetInternal", "Source/Collections/Dictionary.h:Dictionary::AddInternal", "Source/Collections/Dictionary.h:Group::AddInternal", "Source/Collections/Dictionary.h:Group::Clear"]}
{"id": "C92", "title": "What the integer parsers return for other strings", "statement": "For every string, atoi_test, atoi64_test and their wide versions return the number the string begins with (spaces, at most one sign, digits), or the nearest 64-bit number, whether or not they report success; the unsigned functions return the number, or 2^64 minus the number after a minus sign, or 2^64-1 if it is too large; all of them return 0 if the string does not begin with a number. The 32-bit functions return the same numbers as the 64-bit functions.", "quantifier": "every string, every set of space characters without the terminator, the signs and the digits", "why_tests_cant": "Strings and numbers are unbounded.", "anchors": ["Source/Strings/String.cpp:atoi_test", "Source/Strings/String.cpp:atoi64_test", "Source/Strings/String.cpp:atou_test", "Source/Strings/String.cpp:atou64_test"]}
{"id": "C93", "title": "CopyFrom between containers of one memory", "statement": "CopyFrom(ds, ss, append) between lists, sorted lists, arrays, dictionaries and groups in one program, also if ds and ss are the same container, makes ds hold what it held before (with append) or nothing (without) together with what ss held before: behind it for lists and arrays, in order for sorted lists, the entries of ss winning for dictionaries, behind the values of the same key for groups. ss and all other containers do not change, no memory is used that is dead or belongs to another container, and none is lost.", "quantifier": "every program over any number of containers: member calls, moves, destruction, copies, in any order", "why_tests_cant": "What happens depends on contents, capacities and the history of the buffers, all unbounded; undefined behaviour need not be visible in a test.", "anchors": ["Source/Collections/OperationCopyFrom.h:CopyFrom", "Source/Collections/List.h:List", "Source/Collections/List.h:SortedList", "Source/Collections/Dictionary.h:Group"]}
{"id": "C94", "title": "Console", "statement": "Write, WriteLine and SetColor of Console show exactly the characters of the strings, in order, each in the colour and intensity chosen last, and write nothing else; Write(string, length) writes exactly the first length characters. Read returns one line of the input after the other, without the line ending.", "quantifier": "every sequence of calls, every string, every colour, every input; Linux, and Windows with a console or a redirected output", "why_tests_cant": "Texts, sequences of calls and inputs are unbounded, and a test cannot see how a terminal shows characters.", "anchors": ["Source/Console.cpp:Console::WriteLine", "Source/Console.Linux.cpp:Console::Write", "Source/Console.Linux.cpp:Console::SetColor", "Source/Console.Linux.cpp:Console::Read", "Source/Console.Windows.cpp:Console::Write", "Source/Console.Windows.cpp:Console::Read"]}
{"id": "C95", "title": "The report of a test run", "statement": "RunAndDisposeTests writes an outline of the test files: a line for every file, category and case, indented by its level and in the colour of its kind, messages and errors below them, a line for every skipped file, and a summary with the numbers of files and cases and of those that passed. The result is 0 exactly if no error is reported. Without suppression the report is the same up to the first error, which leaves the function as an exception. Files are executed in the order of registration. Unknown options only print the usage.", "quantifier": "every list of files, every nesting of categories, cases, assertions, expected errors and exceptions, every choice of files, every list of options", "why_tests_cant": "Test programs are unbounded, and this is the program that runs the tests.", "anchors": ["Source/UnitTest/UnitTest.cpp:UnitTest::PrintMessage", "Source/UnitTest/UnitTest.cpp:UnitTest::RunAndDisposeTests", "Source/UnitTest/UnitTest.cpp:UnitTest::RunCategoryOrCase", "Source/UnitTest/UnitTest.cpp:UnitTest::RegisterTestFile", "Source/UnitTest/UnitTest.h:TEST_EXCEPTION"]}
{"id": "C96", "title": "Strings used by several threads", "statement": "Threads that copy, move, assign, cut, concatenate, compare, read and destroy their own ObjectString variables and read shared constant strings never use a deleted buffer or counter and never delete one twice, although the strings share buffers. Every thread observes exactly what it would observe alone with strings that are plain values. Shared constants do not change. When all threads have ended, exactly the buffers that no string refers to are deleted, and each remaining counter is the number of strings that share the buffer.", "quantifier": "every number of threads, every program of every thread, every initial sharing of buffers, every interleaving of the atomic steps", "why_tests_cant": "The number of interleavings is astronomically large, the wrong ones are rare, and use after free usually goes unnoticed.", "anchors": ["Source/Strings/String.h:ObjectString::Inc", "Source/Strings/String.h:ObjectString::Dec", "Source/Strings/String.h:ObjectString::SubUnsafe", "Source/Strings/String.h:ObjectString::ReplaceUnsafe", "Source/Strings/String.h:ObjectString::operator=", "Source/Strings/String.h:ObjectString::Buffer", "Source/Basic.h:INCRC"]}
{"id": "C97", "title": "Sorting with comparers that have effects and throw", "statement": "Whatever the comparer passed to Sort/SortLambda does (any effects, any inconsistent answers, throwing at any call), sorting n elements ends, never accesses anything outside the n elements, calls the comparer at most n(n-1) times and only with elements of the sorted part, stops at the first exception and passes it on, raises Error only directly after an unordered answer, and always leaves a permutation of the n elements with the rest of the buffer unchanged; also if copying an element throws. If the answers follow a total preorder the part is sorted whatever else the comparer does.", "quantifier": "for all element types, comparers with state (any answers, any throws), copies of elements that throw or not, buffers, windows of them", "why_tests_cant": "The outcome depends on which of the up to n(n-1) comparisons and 3n(n-1) copies throws and on arbitrary state of the comparer; tests can try a few positions for a few inputs.", "anchors": ["Source/Collections/Operation.h:86-184", "Source/Collections/Operation.h:194-207"]}
{"id": "C98", "title": "When OrderBy and GroupBy call the functions given to them", "statement": "OrderBy(f), OrderByKey(f) and OrderBySelf() are not lazy: they first compute the whole sequence with exactly the calls that enumerating it once makes (an exception of these leaves OrderBy before the comparer is called), then they compare elements of this sequence, at most n(n-1) times, and never after an exception of the comparer; then they return a lazy list of the same elements in some order, or pass on the exception, or raise an Error after an unordered answer. Whatever is done with the returned list, nothing is called any more. If the answers follow a total preorder the list is sorted, whatever else the comparer or the key function does and in whichever order the operands of <=> are evaluated. GroupBy(f) is lazy: making it calls nothing; the keys are computed by calling f for one element after the other as they are wanted; the group of a key calls f for the elements of the source again. A loop over all groups gets each group with its key and calls f once for each element and once more for each element and each group.", "quantifier": "all lazy lists made by member functions, all comparers, key functions and their effects on the program (including exceptions and inconsistent or unordered answers), all states in which they are used", "why_tests_cant": "The tests sort and group a few lists with pure functions and only look at the results; they never observe how often and when the functions are called, and what happens if one of them throws.", "anchors": ["Source/Collections/Operation.h:396-461", "Source/Collections/Operation.h:929-943", "Source/Collections/Operation.h:76-180"]}
{"id": "C99", "title": "Containers with comparisons that have effects, throw or are inconsistent", "statement": "Whatever the comparisons of keys and elements do (any effects, any inconsistent or unordered answers, throwing at any call), no call on SortedList, List, Dictionary or Group is undefined. IndexOf, Contains, Get and Remove of a sorted container make at most log2(n)+1 comparisons, all of them between elements of the container and the given key, stop at the first one that is equal, throws or is unordered, and return or remove exactly the element that was equal; Add finds its place with at most log2(n)+2 comparisons (after one search in Dictionary and Group) and inserts there. List compares one element after the other until one is equal. A call in which a comparison throws or is unordered raises and changes nothing; keys and values of Dictionary and Group stay together, no key of a Group loses all its values and stays, and no memory is lost. If the answers follow a total preorder, Dictionary is a map and Group a multimap, whatever else the comparisons do.", "quantifier": "all programs that call one container and catch everything, all keys and values, all comparisons with state (any answers, any throws), all states in which they are used", "why_tests_cant": "Which call throws or lies, and the state of the comparisons, are unbounded; the tests only use integers and strings, whose comparisons are pure and total.", "anchors": ["Source/Collections/List.h:565-640", "Source/Collections/List.h:699-834", "Source/Collections/Dictionary.h:87-265", "Source/Collections/Dictionary.h:375-607"]}
{"id": "C100", "title": "Collection references follow their collections and are deleted with their last Ptr", "statement": "In a program with Ptr variables, collections (lists, dictionaries, groups, lazy lists) and objects that implement ICollectionReference: SetCollectionReference associates an object to a collection that has none and otherwise raises an Error and changes nothing; what is associated to a collection never changes while it lives, in particular copying, moving and assigning collections transfers nothing and a new collection has none. GetCollectionReference returns what is associated; TryGetCollectionReference<U> returns it, nullptr if there is none, and raises an Error if it is not a U. When a collection is destroyed, OnDisposed of what is associated to it is called exactly once, on an object that lives, and the collection can still be asked for its reference while OnDisposed runs, whatever OnDisposed does (also destroying other collections). An object is deleted exactly once, when no variable and no collection refers to it any more; its counter is always the number of those.", "quantifier": "all sequences of operations on any number of variables, collections and references, including those made inside OnDisposed to any depth, all class relations for the casts", "why_tests_cant": "The tests of the repository do not use collection references; sequences and nesting of OnDisposed are unbounded, and a wrong counter only shows as a use after free.", "anchors": ["Source/Collections/Interfaces.h:19-25", "Source/Collections/Interfaces.h:120-180", "Source/Primitives/Pointer.h:66-275"]}
{"id": "C101", "title": "Sizes and positions as 64-bit numbers", "statement": "With vint of 64 bits, calls on List, searches in SortedList, WString::Sub and Remove, arrays, Range and Take compute no number that does not fit, whatever numbers they get, and a buffer has the memory of its elements: they behave as if numbers were unbounded (C01, C07, C37), and arguments out of range raise an Error. For a List of at most room elements (what malloc can return) the only undefined calls are those that need a larger buffer.", "quantifier": "all histories of calls on a list, all argument values of 64 bits, all list and string lengths, all sizes of available memory", "why_tests_cant": "The failing arguments are near 2^63; the tests use small numbers, and signed overflow need not show in a test even if it happens.", "anchors": ["Source/Collections/List.h:109-178", "Source/Collections/List.h:319-325", "Source/Collections/List.h:507-530", "Source/Collections/List.h:699-727", "Source/Strings/String.h:462-485", "Source/Collections/OperationEnumerable.h:59-117", "Source/Collections/OperationSequence.h:58-62"]}
{"id": "C102", "title": "Every enumerator of lazy lists has one owner", "statement": "Lazy lists are made, copied, moved, overwritten, combined (Take, Skip, Repeat, Distinct, Select, Where, Concat, Pairwise, Reverse, Intersect, Except, Union, Evaluate), read, compared and looped over, and user code may throw at any call. No enumerator is used or deleted after it was deleted; all enumerators that a variable refers to exist, and two variables refer to the same one or share nothing. A statement that throws leaves all variables as they were. When the variables are gone, every enumerator has been deleted.", "quantifier": "all programs of these statements on any number of variables, all ways in which the calls of user code throw", "why_tests_cant": "Ownership is by plain pointers; a test sees a double deletion or a leak only with a checking allocator and only in the programs it runs, and the tests do not throw from selectors, comparisons or copies.", "anchors": ["Source/Collections/Operation.h:228-312", "Source/Collections/OperationSequence.h:22-330", "Source/Collections/OperationSelect.h:22-70", "Source/Collections/OperationWhere.h:20-70", "Source/Collections/OperationSet.h:22-82", "Source/Collections/OperationConcat.h:20-95", "Source/Collections/OperationPair.h:20-76", "Source/Collections/OperationForEach.h:24-60"]}
{"id": "C103", "title": "The operations of List cost amortised constant work and proportional memory", "statement": "Count every element of the list that a call moves (move constructor, move assignment, memcpy, memmove) and every buffer it allocates. Over any history of calls on a new List, the elements moved are at most those behind the changed positions plus five per insertion and ten per removal; as long as nothing is removed, k allocations need at least (5/4)^(k-1) elements; the buffer is at most a constant times the number of elements.", "quantifier": "all histories of calls (with a non-negative RemoveRange count), all element types and values, all lengths", "why_tests_cant": "A test can time or count only the histories it runs; the amortised bound and the growth of the buffer are statements about all histories.", "anchors": ["Source/Collections/List.h:55-178", "Source/Collections/List.h:507-543", "Source/Collections/List.h:588-640"]}
{"id": "C104", "title": "Immutable object graphs can be shared by threads through Ptr", "statement": "Threads build objects that hold other objects by Ptr, do not change them afterwards, copy, move and release their own pointers, follow members, read, and hand pointers to each other. No deleted counter or object is used; everything that can be reached from a variable exists; when no operation is in progress an object exists if and only if it can be reached, and its counter is the number of pointers to it. Deleting a graph ends, and other threads may run in between. The threads see what they would see if every variable held its own copy of the whole tree and every operation happened at once.", "quantifier": "all programs, all numbers of threads, all shapes and depths of graphs, all schedules of the atomic steps", "why_tests_cant": "The tests do not share graphs between threads, and a test runs few of the schedules; the deletion of a node by one thread between two steps of another is a matter of luck.", "anchors": ["Source/Primitives/Pointer.h:32-50", "Source/Primitives/Pointer.h:89-110", "Source/Primitives/Pointer.h:135-167", "Source/Primitives/Pointer.h:201-204", "Source/Primitives/Pointer.h:231-270", "Source/Basic.h:133-136"]}
{"id": "C105", "title": "An enumeration can be continued after an exception", "statement": "A function given to an operator of a lazy list throws out of Next, the caller catches the exception and goes on with the same enumerator, with clones of it, or after Reset. The element that was being computed is lost and nothing else: every other element is delivered once, in order and with the same value; the functions are called the same number of times and in the same order as the sequence needs; Take still delivers its number of elements, Skip still skips its number, Pairwise still pairs elements of the same position; after the end Next returns false and calls nothing.", "quantifier": "all compositions of From, Select, Where, Concat, Pairwise, Take, Skip, Repeat and Distinct, all functions with effects and all ways in which they throw, all sequences of CreateEnumerator, Clone, Next and Reset on any number of enumerators", "why_tests_cant": "The tests never throw from a selector or predicate, let alone use the enumerator afterwards; which state each operator is left in depends on the composition and on the position of the throw.", "anchors": ["Source/Collections/OperationSelect.h:56-67", "Source/Collections/OperationWhere.h:55-66", "Source/Collections/OperationConcat.h:65-84", "Source/Collections/OperationPair.h:56-67", "Source/Collections/OperationSequence.h:55-59", "Source/Collections/OperationSequence.h:111-126", "Source/Collections/OperationSequence.h:180-193", "Source/Collections/OperationSequence.h:253-266"]}
{"id": "C106", "title": "Destructors may use shared pointers", "statement": "The destructors of objects owned by Ptr are code that itself makes objects, copies, moves, resets and looks at Ptr variables and members (also of other objects). Such programs run as they should: a pointer that is assigned or reset lets go of its object and is null from then on; if that was the last pointer, the destructor runs once, then the members let go, the last one first, then the memory is released, and then the pointer gets its new value. There is no use of a deleted counter or object, every object is destroyed exactly once when its last pointer lets go, and its counter is the number of pointers that hold it, also while destructors are running inside each other.", "quantifier": "all numbers of classes, members and variables, all code of the main function and of the destructors (what they do next may depend on everything they have seen), all numbers of steps, also of programs that never end", "why_tests_cant": "The tests have no destructor that uses a Ptr; which pointers are being assigned while a destructor runs depends on the whole stack of destructors.", "anchors": ["Source/Primitives/Pointer.h:32-50", "Source/Primitives/Pointer.h:89-110", "Source/Primitives/Pointer.h:135-167", "Source/Primitives/Pointer.h:201-204", "Source/Primitives/Pointer.h:231-270"]}
{"id": "C107", "title": "Date-times in time zones with daylight saving time (Linux)", "statement": "On Linux, in every time zone with a standard offset and daylight saving time at arbitrary times: DateTime::LocalTime displays what clocks in the zone show and DateTime::UtcTime displays UTC, with the milliseconds of the clock; FromOSInternal keeps its value and displays what clocks show then; Forward/Backward go by exactly the given milliseconds also across changes of the clocks; ToUtcTime displays UTC, ToUtcTime and ToLocalTime cancel, and convert LocalTime and UtcTime of the same moment into each other; FromDateTime returns the members it is given exactly if clocks show them at some time, with a time at which they do.", "quantifier": "for all zones (offset, saving, and any set of times at which it is in effect), C libraries that behave as the standard says, clock readings and internal values", "why_tests_cant": "A test runs in one time zone at one time of the year; the hour of UtcTime is right all winter.", "anchors": ["Source/Primitives/DateTime.Linux.cpp", "Source/Primitives/DateTime.cpp"]}
{"id": "C108", "title": "Clocks and daylight saving time on Windows", "statement": "On Windows, in every time zone with daylight saving time at arbitrary times: DateTime::UtcTime displays UTC and DateTime::LocalTime displays what clocks in the zone show, in milliseconds, with internal values that count 100-nanosecond intervals of what is displayed; ToLocalTime of UtcTime is LocalTime and ToUtcTime of LocalTime is UtcTime; no call uses an uninitialised variable.", "quantifier": "for all zones, all times that Windows can represent, and all behaviours of TzSpecificLocalTimeToSystemTime for times that clocks show twice or never", "why_tests_cant": "Tests run at one moment in one zone; what goes wrong does so in one hour of the year.", "anchors": ["Source/Primitives/DateTime.Windows.cpp", "Source/Primitives/DateTime.cpp"]}
{"id": "C109", "title": "PartialOrderingProcessor: functions with effects, and initialising again after a failure", "statement": "`InitWithFunc(items, depFunc)` calls `depFunc(items[i], items[j])` exactly once for each ordered pair of positions, row by row, whatever the calls do or answer. If `depFunc` throws, the exception leaves `InitWithFunc` at once and the processor is as it was: it can be initialised again and `Sort` then uses only what the later, successful initialisation was told. If all calls answer, `Sort` uses exactly the answers given (also when equal items got different answers). If `depFunc` initialises the same processor, the outer call raises an Error and the processor stays as the inner call left it. After an Error of `InitWithGroup` the processor can be initialised again as if the failed call had not happened (VIOLATED: the dependencies read before the Error are kept and are mixed into the next sort).", "quantifier": "all item lists (also with duplicates), all element types with a total order, all functions that change any state, answer inconsistently or throw at any call, all groups with dependencies of unknown items, all second initialisations with at least as many items", "why_tests_cant": "Tests use pure dependency functions and valid groups, on small graphs; the order and number of calls, inconsistent answers and the state left behind by a failed initialisation are never observed.", "anchors": ["Source/Collections/PartialOrdering.h:PartialOrderingProcessor::InitWithGroup", "Source/Collections/PartialOrdering.h:PartialOrderingProcessor::InitWithFunc", "Source/Collections/PartialOrdering.cpp:PartialOrderingProcessor::InitNodes"]}
{"id": "C110", "title": "PartialOrderingProcessor::Sort: linear work, and the stack it needs", "statement": "After a successful `InitWithGroup`, `Sort` enters its recursive functions exactly twice per item (once in each of the two passes), and its loops look exactly twice at each item and twice at each dependency, however the items depend on each other. At no time are more calls active than there are items. The bound on the active calls is reached: for every n there are n items, each depending on the next, for which n calls are active at the same time.", "quantifier": "all item lists (also with duplicates), all element types with a total order, all groups of dependencies between items (also cyclic and repeated); for the last part every n", "why_tests_cant": "Tests run small graphs and do not measure anything: a missing `visited` check would make the time exponential in the depth of shared dependencies and still give the same answer on small graphs, and the depth of the recursion is only seen as a crash on inputs larger than any test uses.", "anchors": ["Source/Collections/PartialOrdering.cpp:PartialOrderingProcessor::VisitUnvisitedNode", "Source/Collections/PartialOrdering.cpp:PartialOrderingProcessor::AssignUnassignedNode", "Source/Collections/PartialOrdering.cpp:PartialOrderingProcessor::Sort"]}
{"id": "C111", "title": "Global storages at the end of the program", "statement": "When the program ends, after any history of accesses and FinalizeGlobalStorage calls, every storage that is still initialised is finalised exactly once, every storage is destroyed once, and none is used after it has been destroyed. (VIOLATED: storages are destroyed in the reverse order of their first accesses, and a storage that its initialiser uses is accessed later than itself, so a finaliser that uses the same storages as its initialiser uses a destroyed one unless FinalizeGlobalStorage was called; and the destructor of a global variable cannot call FinalizeGlobalStorage, which then reads destroyed storages.) It holds if FinalizeGlobalStorage is called last and finalisers use only storages first accessed after their own: then the end of the program calls no finaliser; and without this call it holds if finalisers use only initialised storages that were accessed before their own: then the finalisers run in the reverse order of the first accesses. Initialisers and finalisers of each storage alternate up to the end of the program in all cases. An exception of an initialiser that a finaliser causes at the end of the program terminates it.", "quantifier": "all numbers of storages, all initialisers and finalisers that access any storages, initialisers that throw, all histories of accesses and FinalizeGlobalStorage calls in main and in the destructors of global variables, every moment until the last destructor has run", "why_tests_cant": "Test programs call FinalizeGlobalStorage before main returns, so the destructors of the storages have nothing to do; a use of a destroyed static variable happens after the last test has reported success and usually has no visible effect.", "anchors": ["Source/GlobalStorage.h:BEGIN_GLOBAL_STORAGE_CLASS", "Source/GlobalStorage.h:END_GLOBAL_STORAGE_CLASS", "Source/GlobalStorage.cpp:GlobalStorage::EnsureFinalized", "Source/GlobalStorage.cpp:FinalizeGlobalStorage"]}
{"id": "C112", "title": "Strings of char on both platforms and in all string classes", "statement": "atow, atou8, atou16 and atou32 give exactly the text of a string of char, and wtoa, u8toa, u16toa and u32toa give the string of char of every text that the locale or the code page can represent, from which every function in the other direction gives the text back. Of other texts Linux makes the empty string in every class; Windows replaces exactly the units that the code page has not by its default character, keeps the number of units, and makes the empty string only of the empty string or if the result is too long for an int. No memory outside of the strings is accessed.", "quantifier": "Linux with every stateless multibyte encoding, Windows with every code page that converts units one by one, all string classes, all texts and also wide strings that are not well formed", "why_tests_cant": "A test runs on one platform in one locale with a few texts; the claim is about all of them and about the exact sizes of the buffers.", "anchors": ["Source/Strings/Conversion.Windows.cpp:_wtoa", "Source/Strings/Conversion.Windows.cpp:_atow", "Source/Strings/Conversion.Linux.cpp:_wtoa", "Source/Strings/Conversion.Linux.cpp:_atow", "Source/Strings/Conversion.cpp:ConvertStringDirect", "Source/Strings/Conversion.h:atou8", "Source/Strings/Conversion.h:u8toa"]}
{"id": "C113", "title": "Command line of tests", "statement": "RunAndDisposeTests(argc, argv), with arguments of wchar_t or of char, shows the usage exactly if an argument is not /D, /R or /F:name or both /D and /R are given, reads no argument beyond argc, and otherwise suppresses failures as /D or /R or the debugger say and executes exactly the files whose path is a given name or ends with it behind a delimiter, also if names have characters that are not ASCII; a name that cannot be represented is reported.", "quantifier": "every command line, every encoding or code page, both platforms, every file", "why_tests_cant": "Command lines, names of files and locales are unbounded; the code cannot be tested with the command line of the test program itself in all locales.", "anchors": ["Source/UnitTest/UnitTest.cpp:UnitTest::RunAndDisposeTests", "Source/Strings/Conversion.cpp:ConvertStringDirect", "Source/Strings/Conversion.Linux.cpp:_wtoa", "Source/Strings/Conversion.Windows.cpp:_atow"]}
{"id": "C114", "title": "Callbacks of GroupInnerJoin", "statement": "GroupInnerJoin calls discardFirst, discardSecond and accept exactly for the keys for which they are due, with ascending keys, each in the state that the call before has left, whatever the callbacks do; an exception of a callback leaves GroupInnerJoin with no other call made; accept is only called for keys that are equal.", "quantifier": "every two groups obtained by any histories, every callback that returns or throws, every order of keys", "why_tests_cant": "Groups and callbacks are unbounded, and callbacks that throw or change the groups in the middle of the join are not tested.", "anchors": ["Source/Collections/Dictionary.h:GroupInnerJoin"]}
{"id": "C115", "title": "Finalisers of global storages that throw", "statement": "FinalizeGlobalStorage calls FinalizeResource of every initialised global storage exactly once, in the order of their registration, and leaves no storage initialised, also if some of them throw; a program that catches the exception may call it again; the destructors at the end of the program call what remains and do not terminate the program.", "quantifier": "every list of registered storages, every state of them, all finalisers with any effects, throwing or not", "why_tests_cant": "The sets of storages and which of their finalisers throw are unbounded; the tests have no finaliser that throws.", "anchors": ["Source/GlobalStorage.cpp:FinalizeGlobalStorage", "Source/GlobalStorage.cpp:GlobalStorage::EnsureFinalized", "Source/GlobalStorage.h:BEGIN_GLOBAL_STORAGE_CLASS"]}
