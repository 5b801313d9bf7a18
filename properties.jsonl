{"id": "C01", "title": "Numeric lists behave as sequences", "statement": "For every history of new/new_len/push/pop/shift/unshift/insert/remove/replace/resize/reserve/set/get/to_array on an IntList (and the textually identical Byte/Short/Long/Float/DoubleList), the results and the contents seen through get/to_array/length are those of a plain mathematical sequence; capacity is never observable except through capacity().", "quantifier": "all operation histories, all int arguments, all element values, all initial arrays and capacities (lengths below 2^30)", "why_tests_cant": "Histories are unbounded and the interesting cases (growth, memmove overlap, stale slots after shrink) depend on the whole past.", "anchors": ["lib/SPVM/IntList.spvm:IntList", "lib/SPVM/Array.c:SPVM__Array__memmove_int", "lib/SPVM/Array.spvm:memset_int"]}
{"id": "C02", "title": "Numeric list operations that throw change nothing", "statement": "Whenever an IntList operation throws (bad index, empty pop/shift, bad removal range, allocation refused) the list afterwards has exactly the elements it had before, and out-of-range indexes always throw rather than touching memory.", "quantifier": "all reachable lists, all operations, all int32 arguments, any allocation limit", "why_tests_cant": "Failure atomicity quantifies over all states and all failing arguments, including allocation failure at any growth step.", "anchors": ["lib/SPVM/IntList.spvm:insert", "lib/SPVM/IntList.spvm:replace", "lib/SPVM/IntList.spvm:_maybe_extend"]}
{"id": "C03", "title": "Object lists behave as sequences", "statement": "For every history of operations on a List, observable results are those of a plain sequence of objects although storage is a ring buffer with a moving offset.", "quantifier": "all operation histories, arguments and elements", "why_tests_cant": "The ring offset wraps at history dependent points; unit tests visit a handful of offsets.", "anchors": ["lib/SPVM/List.spvm:List", "lib/SPVM/List.spvm:_extend", "lib/SPVM/Array.spvm:memcpy_object_address"]}
{"id": "C04", "title": "Object list operations that throw change nothing", "statement": "Whenever a List operation throws, the sequence of elements seen afterwards is unchanged.", "quantifier": "all reachable lists, operations, arguments", "why_tests_cant": "Needs every offset/length/capacity combination.", "anchors": ["lib/SPVM/List.spvm:replace", "lib/SPVM/List.spvm:get", "lib/SPVM/List.spvm:reserve"]}
{"id": "C05", "title": "StringBuffer behaves as a byte string", "statement": "For every history of push/push_char/replace/reserve/set/set_length on a StringBuffer, to_string returns exactly the byte string obtained by the corresponding operations on mathematical byte strings, and length matches.", "quantifier": "all histories, byte strings, offsets and lengths", "why_tests_cant": "Growth and in-place memmove depend on the whole history.", "anchors": ["lib/SPVM/StringBuffer.spvm:StringBuffer"]}
{"id": "C06", "title": "StringBuffer comparison is byte-wise lexicographic order", "statement": "cmp returns the sign of the lexicographic comparison of the two contents, eq is true exactly when contents are equal, and eq agrees with cmp.", "quantifier": "all pairs of buffers, including undef and different capacities", "why_tests_cant": "Totality/antisymmetry quantify over all pairs and lengths.", "anchors": ["lib/SPVM/StringBuffer.spvm:cmp", "lib/SPVM/StringBuffer.spvm:eq"]}
{"id": "C07", "title": "Hash behaves as a finite map", "statement": "For every history of set/delete/get/exists on a Hash, get returns the value of the most recent set of that key (or undef after delete / never set), independent of the seed and of rehashing.", "quantifier": "all histories, keys, values, seeds and hash functions", "why_tests_cant": "Collisions and rehash points depend on seed and history; tests see one seed.", "anchors": ["lib/SPVM/Hash.spvm:set", "lib/SPVM/Hash.spvm:get", "lib/SPVM/Hash.spvm:delete", "lib/SPVM/Hash.spvm:_rehash"]}
{"id": "C08", "title": "Hash key enumeration is exact", "statement": "keys lists each present key exactly once, keys_length equals the number of present keys, values/to_array agree with get.", "quantifier": "all histories, all seeds", "why_tests_cant": "Quantifies over all collision patterns.", "anchors": ["lib/SPVM/Hash.spvm:keys", "lib/SPVM/Hash.spvm:values", "lib/SPVM/Hash.spvm:to_array"]}
{"id": "C09", "title": "Weakened hash entries stay weak", "statement": "If weaken(key) was called and the entry was not set/unweakened/deleted since, isweak(key) stays true.", "quantifier": "all histories", "why_tests_cant": "Depends on whether later sets trigger a rehash.", "anchors": ["lib/SPVM/Hash.spvm:weaken", "lib/SPVM/Hash.spvm:_rehash"]}
{"id": "C10", "title": "Sort returns a stable sorted permutation", "statement": "After Sort->sort_* with a comparator that is a total preorder, the sorted range is ordered, is a permutation of the original range, equal elements keep their order and elements outside the range are untouched.", "quantifier": "all arrays of at most 2^30 elements (beyond that the midpoint computation overflows, recorded as a violation), ranges (offset,length), comparators", "why_tests_cant": "Every length and every comparator.", "anchors": ["lib/SPVM/Sort.spvm:_sort_int_merge", "lib/SPVM/Sort.spvm:_sort_int_merge_sort", "lib/SPVM/Sort.spvm:sort_int"]}
{"id": "C11", "title": "A throwing or inconsistent comparator never loses elements", "statement": "For any comparator whatsoever (inconsistent, stateful or throwing at any call), after sort returns or throws the array is a permutation of the original array.", "quantifier": "all arrays of at most 2^30 elements, all comparator behaviours, every exception point", "why_tests_cant": "Crash points and adversarial comparators are unbounded.", "anchors": ["lib/SPVM/Sort.spvm:_sort_object_merge"]}
{"id": "C12", "title": "Fn->sort returns a sorted copy and leaves its argument unchanged", "statement": "Fn->sort($array,$comparator) returns a new sorted array and does not modify $array.", "quantifier": "all arrays and comparators", "why_tests_cant": "Aliasing claim over all inputs.", "anchors": ["lib/SPVM/Fn.spvm:sort"]}
{"id": "C13", "title": "Shuffle is a permutation for every seed", "statement": "Array->shuffle_object / shuffle permute the array: no element lost or duplicated, whatever the seed; the same seed gives the same result.", "quantifier": "all arrays, all seeds", "why_tests_cant": "All seeds and lengths.", "anchors": ["lib/SPVM/Array.spvm:shuffle_object", "lib/SPVM/Fn.c:spvm_rand_r"]}
{"id": "C14", "title": "split and join are inverse", "statement": "For every string and non-empty separator, join(sep, split(sep, s)) = s; no part of an unlimited split contains the separator; with limit n at most n parts are returned.", "quantifier": "all strings, separators, limits", "why_tests_cant": "All byte strings incl. overlapping separators.", "anchors": ["lib/SPVM/Fn.spvm:split", "lib/SPVM/Fn.spvm:join"]}
{"id": "C15", "title": "trim removes exactly the surrounding spaces", "statement": "trim(s) is the substring of s obtained by removing the maximal prefix and suffix of ASCII space characters; trim is idempotent.", "quantifier": "all strings", "why_tests_cant": "All byte strings.", "anchors": ["lib/SPVM/Fn.spvm:trim", "lib/SPVM/Fn.spvm:is_space"]}
{"id": "C16", "title": "index/rindex find the first/last occurrence", "statement": "index returns the least position p>=begin at which the substring occurs (with end bound), -1 iff none; rindex the greatest; contains agrees with index.", "quantifier": "all strings, substrings, offsets", "why_tests_cant": "Minimality is a universal claim.", "anchors": ["lib/SPVM/Fn.spvm:index", "lib/SPVM/Fn.spvm:rindex", "lib/SPVM/Fn.spvm:contains"]}
{"id": "C17", "title": "substr/copy range semantics", "statement": "substr(s,off,len,[replacement]) returns exactly the len bytes at off for every valid range and throws for invalid ones.", "quantifier": "all strings, offsets and lengths", "why_tests_cant": "All ranges incl. overflow of off+len.", "anchors": ["lib/SPVM/Fn.spvm:substr"]}
{"id": "C18", "title": "Case conversion is byte-wise ASCII and idempotent", "statement": "lc/uc change only ASCII letters, keep length, are idempotent and lc(uc(s)) = lc(s).", "quantifier": "all strings", "why_tests_cant": "All byte strings.", "anchors": ["lib/SPVM/Fn.spvm:lc", "lib/SPVM/Fn.spvm:uc", "lib/SPVM/Fn.spvm:to_lower"]}
{"id": "C19", "title": "chr and ord are inverse on Unicode scalar values", "statement": "For each Unicode scalar value cp, chr(cp) is defined and ord(chr(cp)) = cp; chr yields undef for all other ints.", "quantifier": "all 2^32 ints", "why_tests_cant": "Full code space and all continuations.", "anchors": ["lib/SPVM/Fn.c:SPVM__Fn__chr", "lib/SPVM/Fn.c:spvm_utf8proc_iterate", "lib/SPVM/Fn.spvm:chr", "lib/SPVM/Fn.spvm:ord"]}
{"id": "C20", "title": "UTF-8 decoding is exact", "statement": "The decoder accepts exactly the canonical (shortest-form, non-surrogate, <=0x10FFFF) encodings and decode(encode cps) = cps for every code point sequence; a failing decode throws.", "quantifier": "all byte strings, all code point sequences", "why_tests_cant": "All strings of all lengths.", "anchors": ["lib/SPVM/Fn.c:SPVM__Fn__get_code_point", "lib/SPVM/Fn.spvm:to_code_points", "lib/SPVM/Builder/src/spvm_utf8.c:SPVM_UTF8_iterate"]}
{"id": "C21", "title": "hex parses exactly the hexadecimal numerals", "statement": "hex(s) of an 1..8 digit hexadecimal numeral is its value (as 32-bit int) and any other string throws.", "quantifier": "all strings", "why_tests_cant": "All strings.", "anchors": ["lib/SPVM/Fn.spvm:hex"]}
{"id": "C22", "title": "powi/powl compute exact powers within range", "statement": "powi(x,y) = x^y whenever all intermediate products fit the type, and negative exponents throw.", "quantifier": "all bases and exponents", "why_tests_cant": "Loop with data-dependent length.", "anchors": ["lib/SPVM/Fn.spvm:powi", "lib/SPVM/Fn.spvm:powl"]}
{"id": "C23", "title": "Memory copy builtins are range safe", "statement": "Array->memcpy_*/memmove_* either throw or touch only indexes inside both arrays, with memmove giving the copy of the old contents also for overlapping ranges.", "quantifier": "all arrays, offsets, lengths incl. extremes of int", "why_tests_cant": "offset+length overflow and overlaps.", "anchors": ["lib/SPVM/Array.c:SPVM__Array__memcpy_int", "lib/SPVM/Array.c:SPVM__Array__memmove_int"]}
{"id": "C24", "title": "Fn->memcpy/memmove on any objects are range safe", "statement": "Fn->memcpy/memmove/memcmp either throw or touch only bytes inside both objects.", "quantifier": "all objects and int offsets/lengths", "why_tests_cant": "Negative and overflowing arguments.", "anchors": ["lib/SPVM/Fn.c:SPVM__Fn__memcpy", "lib/SPVM/Fn.c:SPVM__Fn__memcmp"]}
{"id": "C25", "title": "Array algebra", "statement": "merge is concatenation, equals is element-wise equality (an equivalence), copy with range is the slice, memset sets exactly the range, reverse is an involution and a permutation.", "quantifier": "all arrays and ranges", "why_tests_cant": "All lengths.", "anchors": ["lib/SPVM/Array.spvm:merge_int", "lib/SPVM/Array.spvm:equals_int", "lib/SPVM/Array.spvm:copy_int", "lib/SPVM/Array.spvm:memset_int", "lib/SPVM/Fn.spvm:reverse_inplace"]}
{"id": "C26", "title": "Array->repeat repeats the array count times", "statement": "repeat(a,n) has length n*length(a) and element i equals a[i mod length(a)].", "quantifier": "all arrays and counts", "why_tests_cant": "All lengths and counts.", "anchors": ["lib/SPVM/Array.spvm:repeat"]}
{"id": "C27", "title": "Byte order conversion is an involution", "statement": "change_endian of size 1/2/4/8 reverses exactly the bytes of the field; applying it twice restores the buffer; bytes outside are untouched.", "quantifier": "all buffers, offsets", "why_tests_cant": "All buffers.", "anchors": ["lib/SPVM/Fn.spvm:change_endian"]}
{"id": "C28", "title": "pack/unpack round trip", "statement": "unpack(template, pack(template, values)) = values for integer/array specifiers.", "quantifier": "all templates in the supported grammar, all values", "why_tests_cant": "Templates and values unbounded.", "anchors": ["lib/SPVM/Packer.spvm:pack", "lib/SPVM/Packer.spvm:unpack"]}
{"id": "C29", "title": "Integer division and remainder", "statement": "/ truncates toward zero, % has the sign of the divisor, (a/b) and % satisfy their defining equations; division by zero throws; the only other undefined case is MIN / -1 and MIN % -1.", "quantifier": "all pairs of int32/int64 operands", "why_tests_cant": "2^64 operand pairs.", "anchors": ["lib/SPVM/Builder/include/spvm_implement.h:SPVM_IMPLEMENT_DIVIDE_INT", "lib/SPVM/Builder/include/spvm_implement.h:SPVM_IMPLEMENT_MODULO_INT"]}
{"id": "C30", "title": "Array element access is memory safe", "statement": "Reading or writing an element either throws (undef array or index outside 0..length-1) or touches exactly that element.", "quantifier": "all arrays and indexes", "why_tests_cant": "All indexes and lengths.", "anchors": ["lib/SPVM/Builder/include/spvm_implement.h:SPVM_IMPLEMENT_GET_ARRAY_ELEMENT_INT", "lib/SPVM/Builder/include/spvm_implement.h:SPVM_IMPLEMENT_SET_ARRAY_ELEMENT_INT"]}
{"id": "C31", "title": "String comparison operators form a total order", "statement": "cmp/eq/ne/lt/le/gt/ge on strings (and undef) are the lexicographic byte order with undef least, mutually consistent.", "quantifier": "all pairs/triples of strings", "why_tests_cant": "Transitivity is a universal claim.", "anchors": ["lib/SPVM/Builder/include/spvm_implement.h:SPVM_IMPLEMENT_STRING_COMPARISON"]}
{"id": "C32", "title": "Reference counting frees exactly the unreachable counts", "statement": "After any history of object assignments to variables/fields, every object's reference count equals the number of strong references to it, no reference dangles, and an object is destroyed exactly when its last strong reference goes away.", "quantifier": "all histories of assign/weaken/unweaken on all heaps", "why_tests_cant": "Heap shapes and histories unbounded.", "anchors": ["lib/SPVM/Builder/src/spvm_api.c:SPVM_API_assign_object", "lib/SPVM/Builder/src/spvm_api.c:SPVM_API_dec_ref_count"]}
{"id": "C33", "title": "Weak references are undef after destruction", "statement": "A weak reference never keeps an object alive, and reads as undef once the object is destroyed; weaken/unweaken are inverse on counts.", "quantifier": "all histories", "why_tests_cant": "All interleavings of weaken, assign, destroy.", "anchors": ["lib/SPVM/Builder/src/spvm_api.c:SPVM_API_weaken", "lib/SPVM/Builder/src/spvm_api.c:SPVM_API_unweaken", "lib/SPVM/Builder/src/spvm_api.c:SPVM_API_free_weaken_backrefs"]}
{"id": "C34", "title": "Mortal scopes balance", "statement": "leave_scope releases exactly the objects pushed since the matching enter_scope, in any nesting; the mortal stack never overflows its allocation.", "quantifier": "all nestings and push sequences", "why_tests_cant": "Unbounded nesting/growth.", "anchors": ["lib/SPVM/Builder/src/spvm_api.c:SPVM_API_push_mortal", "lib/SPVM/Builder/src/spvm_api.c:SPVM_API_leave_scope"]}
{"id": "C35", "title": "Type assignability is a sound preorder", "statement": "Assignability without conversion is reflexive on concrete types and transitive along class inheritance; the runtime answer with the cache equals the uncached answer for every query history and thread interleaving.", "quantifier": "all class hierarchies, types, query histories, interleavings", "why_tests_cant": "Unbounded hierarchies and schedules.", "anchors": ["lib/SPVM/Builder/src/spvm_type.c:SPVM_TYPE_satisfy_assignment_requirement", "lib/SPVM/Builder/src/spvm_api_type.c:SPVM_API_TYPE_can_assign", "lib/SPVM/Builder/src/spvm_basic_type.c:SPVM_BASIC_TYPE_is_super_class"]}
{"id": "C36", "title": "Instance method lookup follows inheritance", "statement": "Calling a method on an object runs the definition in the most derived class that has it; a subclass inherits every instance method it does not redefine.", "quantifier": "all class hierarchies", "why_tests_cant": "Unbounded depth.", "anchors": ["lib/SPVM/Builder/src/spvm_api.c:SPVM_API_get_instance_method"]}
{"id": "C37", "title": "Call depth and INIT", "statement": "Nested calls beyond the call depth limit throw and the depth counter is restored on every exit; the INIT block of each class runs at most once; when it runs, the INIT blocks of its parent class and of the classes it uses have completed (absent cycles of use), and after a start-up without exception every INIT block has run. Omitted arguments have their default values, given object arguments of instance methods are checked.", "quantifier": "all call trees, all exceptions", "why_tests_cant": "Unbounded call trees.", "anchors": ["lib/SPVM/Builder/src/spvm_api.c:SPVM_API_call_method_common", "lib/SPVM/Builder/src/spvm_api.c:SPVM_API_call_init_methods"]}
{"id": "C38", "title": "Symbol table is a finite map", "statement": "The C symbol table returns for every key the value of the last set, for every history, initial capacity and collision pattern, including keys with NUL bytes and empty keys.", "quantifier": "all histories, keys (any bytes), capacities", "why_tests_cant": "Chains and rehash.", "anchors": ["lib/SPVM/Builder/src/spvm_hash.c:SPVM_HASH_get", "lib/SPVM/Builder/src/spvm_hash.c:SPVM_HASH_set", "lib/SPVM/Builder/src/spvm_hash.c:SPVM_HASH_rehash"]}
{"id": "C39", "title": "Internal list is a sequence", "statement": "push/unshift/pop/shift/get/set/clear behave as on a sequence for every history and every initial capacity.", "quantifier": "all histories", "why_tests_cant": "History dependent growth.", "anchors": ["lib/SPVM/Builder/src/spvm_list.c:SPVM_LIST_push"]}
{"id": "C40", "title": "String buffer native API accumulates exactly and stays in bounds", "statement": "Contents after any sequence of add* calls is the concatenation of the added bytes; never writes past the allocation.", "quantifier": "all sequences of adds", "why_tests_cant": "Growth history.", "anchors": ["lib/SPVM/Builder/src/spvm_string_buffer.c:SPVM_STRING_BUFFER_add_len"]}
{"id": "C41", "title": "Memory block accounting", "statement": "The memory block count equals the number of live blocks for every alloc/free history and is zero exactly when all were freed.", "quantifier": "all histories", "why_tests_cant": "History property.", "anchors": ["lib/SPVM/Builder/src/spvm_allocator.c", "lib/SPVM/Builder/src/spvm_api.c:SPVM_API_get_memory_blocks_count"]}
{"id": "C42", "title": "String interning", "statement": "Equal byte strings intern to the same entry, distinct strings to distinct entries, and entries never change.", "quantifier": "all histories of strings", "why_tests_cant": "History property.", "anchors": ["lib/SPVM/Builder/src/spvm_string.c:SPVM_STRING_new", "lib/SPVM/Builder/src/spvm_basic_type.c:SPVM_BASIC_TYPE_add_constant_string"]}
{"id": "C43", "title": "Numeric to string to numeric conversion", "statement": "Converting any byte/short/int/long to string and back yields the same number; string to byte/short/int/long reads the longest integer at the start of the string (white space, sign, digits), saturates at the type bounds, and gives 0 when there is none; Fn->to_int, Fn->to_long and their variants for base 2, 8 and 16 return the number the whole string denotes and throw otherwise.", "quantifier": "all integers, all strings", "why_tests_cant": "All values.", "anchors": ["lib/SPVM/Builder/include/spvm_implement.h:SPVM_IMPLEMENT_TYPE_CONVERSION_STRING_TO_INT", "lib/SPVM/Builder/include/spvm_implement.h:SPVM_IMPLEMENT_TYPE_CONVERSION_LONG_TO_STRING", "lib/SPVM/Fn.c:SPVM__Fn__to_int_with_base", "lib/SPVM/Fn.c:SPVM__Fn__to_long_with_base"]}
{"id": "C44", "title": "sprintf copies literal text and pads to width", "statement": "Format->sprintf output is the concatenation of literal text and formatted arguments; literal text (with %% escapes) is preserved; padded fields have at least the requested width.", "quantifier": "all formats and argument lists", "why_tests_cant": "All format strings.", "anchors": ["lib/SPVM/Format.spvm:sprintf"]}
{"id": "C45", "title": "Random numbers are in range and reproducible", "statement": "Fn->crand with the same seed reference state returns the same number and always lies in 0..2^31-1.", "quantifier": "all seeds", "why_tests_cant": "All 2^32 seeds.", "anchors": ["lib/SPVM/Fn.c:SPVM__Fn__crand"]}
{"id": "C46", "title": "tr replaces exactly the characters of the range", "statement": "tr maps each character in the search range to the corresponding replacement and leaves others unchanged; result count is right.", "quantifier": "all strings and ranges", "why_tests_cant": "All strings.", "anchors": ["lib/SPVM/Fn.spvm:tr", "lib/SPVM/Fn.spvm:_parse_range"]}
{"id": "C47", "title": "Shift operators", "statement": "Arithmetic right shift by n divides by 2^n rounding down, logical right shift and left shift act on the two's complement bits, for every shift count inside the type's width.", "quantifier": "all values and all shift counts, both widths", "why_tests_cant": "2^64 values times the shift counts; sign and width boundaries.", "anchors": ["lib/SPVM/Builder/include/spvm_implement.h:SPVM_IMPLEMENT_LEFT_SHIFT_INT", "lib/SPVM/Builder/include/spvm_implement.h:SPVM_IMPLEMENT_RIGHT_ARITHMETIC_SHIFT_INT", "lib/SPVM/Builder/include/spvm_implement.h:SPVM_IMPLEMENT_RIGHT_LOGICAL_SHIFT_INT"]}
{"id": "C48", "title": "Multi-numeric array fields are independent cells", "statement": "In an array of a multi-numeric type, storing a field of one element changes exactly that field of that element; every index outside the array and every undef array throws instead of touching memory.", "quantifier": "all arrays, indexes, field indexes and values", "why_tests_cant": "All array lengths and index pairs; an address error shows only for particular strides.", "anchors": ["lib/SPVM/Builder/include/spvm_implement.h:SPVM_IMPLEMENT_GET_MULNUM_ARRAY_FIELD_INT", "lib/SPVM/Builder/src/spvm_api.c:SPVM_API_new_mulnum_array_no_mortal"]}
{"id": "C49", "title": "lcfirst/ucfirst convert only the first byte", "statement": "For every string, lcfirst (ucfirst) returns the string with its first byte converted to ASCII lower (upper) case and every other byte unchanged.", "quantifier": "all strings", "why_tests_cant": "Must hold for every string including the empty one and non-ASCII bytes.", "anchors": ["lib/SPVM/Fn.spvm:lcfirst", "lib/SPVM/Fn.spvm:ucfirst"]}
{"id": "C50", "title": "Character class functions agree with ASCII for every int", "statement": "is_alnum, is_alpha, ... is_xdigit, to_lower, to_upper agree with the C/POSIX ASCII classes for every int argument (and are false outside ASCII); abs and labs return the absolute value.", "quantifier": "all 2^32 (2^64) arguments", "why_tests_cant": "The claim ranges over all ints, also negative ones and those outside ASCII.", "anchors": ["lib/SPVM/Fn.spvm:is_blank", "lib/SPVM/Fn.spvm:is_punct", "lib/SPVM/Fn.spvm:to_lower", "lib/SPVM/Fn.spvm:abs"]}
{"id": "C51", "title": "In-place string functions change exactly what they name", "statement": "chomp removes exactly one trailing CRLF or LF; shorten cuts to the given length and never grows; shorten_null_char cuts at the first NUL; replace_chars replaces exactly the bytes equal to the given character; equals_string_range is equality of the two ranges and throws when a range leaves its string.", "quantifier": "all strings, offsets, lengths and characters", "why_tests_cant": "Boundary conditions for every length and offset combination.", "anchors": ["lib/SPVM/Fn.spvm:chomp", "lib/SPVM/Fn.c:SPVM__Fn__shorten", "lib/SPVM/Fn.spvm:shorten_null_char", "lib/SPVM/Fn.spvm:replace_chars", "lib/SPVM/Fn.spvm:equals_string_range"]}
{"id": "C52", "title": "UTF-8 length, characters and substrings count characters", "statement": "utf8_length(s) is the number of characters of s, to_utf8_chars(s) are its characters in order, utf8_substr(s,o,n) is exactly characters o..o+n-1 and throws when the range leaves the string; all throw on strings that are not valid UTF-8.", "quantifier": "all byte strings, offsets and lengths", "why_tests_cant": "Must hold for every byte string, valid or not, and every range.", "anchors": ["lib/SPVM/Fn.spvm:utf8_length", "lib/SPVM/Fn.spvm:to_utf8_chars", "lib/SPVM/Fn.spvm:utf8_substr"]}
{"id": "C53", "title": "Every field of an object has its own memory", "statement": "Every field a class declares or inherits has its own bytes in the object: writing a field and reading it gives the value written and leaves every other field unchanged, no access leaves the object or is misaligned, a new object has all fields zero, and code compiled for a super class works on objects of a subclass because the inherited fields keep their places. A field name denotes one field; redeclaring a field with another type is a compile error.", "quantifier": "all class hierarchies, numbers, orders and types of fields, all objects and values", "why_tests_cant": "The layout depends on the whole sequence of field types in the class hierarchy; an overlap for one rare sequence silently corrupts data.", "anchors": ["lib/SPVM/Builder/src/spvm_check.c:SPVM_CHECK_check_field_offset", "lib/SPVM/Builder/src/spvm_check.c:SPVM_CHECK_check_basic_types", "lib/SPVM/Builder/include/spvm_implement.h:SPVM_IMPLEMENT_GET_FIELD_INT"]}
{"id": "C54", "title": "A switch statement continues at the case with the operand's value", "statement": "For any list of int case constants, in any order, the compiler reports a compile error exactly if two of them are equal; otherwise, at run time, control continues at the case whose constant equals the operand, and at the default if there is none.", "quantifier": "all lists of case constants, all operands", "why_tests_cant": "The cases are sorted by a hand-written exchange sort and looked up by a hand-written binary search; an off-by-one shows only for particular numbers and orders of cases.", "anchors": ["lib/SPVM/Builder/src/spvm_check.c:SPVM_CHECK_check_ast_syntax", "lib/SPVM/Builder/src/spvm_vm.c:SPVM_OPCODE_C_ID_LOOKUP_SWITCH", "lib/SPVM/Builder/src/spvm_opcode_builder.c:SPVM_OPCODE_BUILDER_build_opcodes"]}
{"id": "C55", "title": "Compiled control flow does what the source says", "statement": "For every method body, running the compiled code has the effect the statements have: sequences, if/elsif/else, for and while loops, switch, next, last, break, return, exceptions and eval transfer control as written, every scope that is left in whatever way releases exactly the object variables declared in it, the method ends with the same result and error (or runs forever exactly if the statements do), and the virtual machine never leaves the code nor writes outside the mortal stack.", "quantifier": "all method bodies (arbitrary nesting), all behaviours of the operators and called methods, all initial states", "why_tests_cant": "Jump targets are patched through several stacks shared by all nesting levels; a wrong target or scope depth shows only for particular nestings of statements and particular exits.", "anchors": ["lib/SPVM/Builder/src/spvm_opcode_builder.c:SPVM_OPCODE_BUILDER_build_opcodes", "lib/SPVM/Builder/src/spvm_check.c:SPVM_CHECK_check_ast_if_block_need_leave_scope", "lib/SPVM/Builder/src/spvm_op.c:SPVM_OP_build_for_statement", "lib/SPVM/Builder/src/spvm_vm.c:SPVM_VM_call_method"]}
{"id": "C56", "title": "Local variables have lexical scope and memory of their own", "statement": "In every method the compiler accepts, each use of a variable means the last declaration of that name whose scope is still open, or else the class variable of that name; the compiler reports an error exactly if a name is declared twice in one scope or a used name means nothing. Two declared variables never share a byte of the call frame, and every variable lies inside the frame at an address that is a multiple of its size, apart from the list of variables to be released.", "quantifier": "all method bodies (arbitrary nesting of scopes, declarations and uses), all types of variables", "why_tests_cant": "A stack of names cut back at the end of each scope and a first-fit search for memory are right or wrong depending on the nesting and order of declarations.", "anchors": ["lib/SPVM/Builder/src/spvm_check.c:SPVM_CHECK_check_ast_syntax", "lib/SPVM/Builder/src/spvm_check.c:SPVM_CHECK_get_typed_var_index", "lib/SPVM/Builder/src/spvm_check.c:SPVM_CHECK_check_ast_typed_var_indexs", "lib/SPVM/Builder/src/spvm_vm.c:SPVM_VM_call_method"]}
{"id": "C57", "title": "Reference counting is safe under every schedule of threads", "statement": "However the steps of several threads interleave, creating objects, assigning references, setting them to undef, weakening and unweakening them never uses memory of a freed object and never frees one twice: every strong or weak reference points to an object that exists, an object that is not referred to is freed as soon as no release is under way, its count is the number of strong references to it, and a freed object never comes back.", "quantifier": "all numbers of threads and objects, all schedules of their critical sections, all object graphs, destructors that run in between", "why_tests_cant": "A test sees one schedule; the release of an object is spread over several critical sections, between which any other thread may run.", "anchors": ["lib/SPVM/Builder/src/spvm_api.c:SPVM_API_assign_object", "lib/SPVM/Builder/src/spvm_api.c:SPVM_API_weaken", "lib/SPVM/Builder/src/spvm_api.c:SPVM_API_unweaken", "lib/SPVM/Builder/src/spvm_api.c:SPVM_API_free_weaken_backrefs"]}
{"id": "C58", "title": "Type casts are type safe", "statement": "The compiler accepts a cast exactly if the documented tables allow it. An accepted cast of a value either throws an exception or yields a value that a variable of the type may hold: numbers are converted, boxed, unboxed, formatted or parsed, strings and byte arrays are copied, and a cast between object types yields the very same object exactly if the object's own type can be assigned to the type; otherwise it throws. A number survives the round trip through object, a string the one through byte[].", "quantifier": "all programs, all pairs of types, all values", "why_tests_cant": "There are arbitrarily many class hierarchies, interfaces and array dimensions; the answer of a run time check depends on the dynamic type of the object.", "anchors": ["lib/SPVM/Builder/src/spvm_type.c:SPVM_TYPE_satisfy_cast_requirement", "lib/SPVM/Builder/src/spvm_opcode_builder.c:SPVM_OP_C_ID_TYPE_CAST", "lib/SPVM/Builder/include/spvm_implement.h:SPVM_IMPLEMENT_MOVE_OBJECT_WITH_TYPE_CHECK", "lib/SPVM/Document/Language/Types.pm:Cast Requirement"]}
{"id": "C59", "title": "Numeric literals denote the number that is written", "statement": "An integer literal in decimal, hexadecimal, octal or binary notation, with underlines anywhere after its beginning, an optional minus and the suffix of the long type, becomes the constant of type int or long that its digits denote; the compiler goes on right after it. If the number is outside of the range of the type, or a digit does not belong to the base, compilation fails. A floating point literal becomes what strtof or strtod makes of its text without underlines. No source text makes reading a literal read memory outside of the source.", "quantifier": "all source texts, all digit strings of any length, all texts after the literal", "why_tests_cant": "There are unboundedly many digit strings and contexts; overflow and the boundaries between literal and following text depend on all of them.", "anchors": ["lib/SPVM/Builder/src/spvm_toke.c:SPVM_TOKE_yylex (numeric literal)", "lib/SPVM/Builder/src/spvm_toke.c:SPVM_TOKE_is_hex_number", "lib/SPVM/Document/Language/Tokenization.pm:Integer Literals"]}
{"id": "C60", "title": "String and character literals denote the bytes that are written", "statement": "A string literal, a single-quoted string literal and a character literal are accepted exactly when their text is spelled with the documented characters and escape characters, and their value is exactly the bytes that are spelled; every string of bytes can be written. A variable expansion in a string literal ends where the documented forms end, and the constants around it are the text around it. Decoding never writes more bytes than the literal is long, and no source text makes the compiler read outside of the source or run forever.", "quantifier": "all source texts of any length, all strings of bytes, all escape characters and variable expansions", "why_tests_cant": "Texts are unbounded, escape characters interact with the text after them (maximal digits, quotes, the end of the source), and absence of overreads and endless loops is about all texts.", "anchors": ["lib/SPVM/Builder/src/spvm_toke.c:SPVM_TOKE_yylex (string, single-quoted string and character literals)", "lib/SPVM/Builder/src/spvm_toke.c:SPVM_TOKE_parse_octal_escape", "lib/SPVM/Builder/src/spvm_toke.c:SPVM_TOKE_parse_hex_escape", "lib/SPVM/Document/Language/Tokenization.pm:String Literal"]}
{"id": "C61", "title": "Numeric expressions have the documented types, values and effects", "statement": "An expression of arithmetic, bit, shift and comparison operators, casts, assignments, special assignments, increments, decrements and sequential operators on numeric variables and literals is accepted exactly if its operand types are the documented ones. Executing it gives the value of the documented type that is obtained by converting the operands as documented and evaluating them from left to right, or the exception for a division by zero; it changes exactly the variables it assigns to, to the documented values, and every variable keeps a value of its type.", "quantifier": "all expressions of any size over variables and literals of the six numeric types, all values of the variables, every implementation of floating point arithmetic", "why_tests_cant": "Expressions nest without bound, operand types, implicit conversions and temporary variables combine, and each operand has 2 to the 64 values.", "anchors": ["lib/SPVM/Builder/src/spvm_op.c:SPVM_OP_build_special_assign, SPVM_OP_build_inc, SPVM_OP_build_dec", "lib/SPVM/Builder/src/spvm_check.c:SPVM_CHECK_check_ast_syntax, SPVM_CHECK_check_ast_assign_unassigned_op_to_var, SPVM_CHECK_check_assign, SPVM_CHECK_perform_binary_numeric_conversion", "lib/SPVM/Builder/src/spvm_opcode_builder.c:SPVM_OPCODE_BUILDER_build_opcode_list, SPVM_OPCODE_BUILDER_get_op_var", "lib/SPVM/Builder/include/spvm_implement.h", "lib/SPVM/Document/Language/Operators.pm"]}
{"id": "C62", "title": "Logical operators short-circuit and conditions select the right block", "statement": "An operation with &&, || or ! on numeric operands, object variables, reference variables and undef, nested to any depth, has the documented int value: 0 or the evaluated right operand for &&, the first operand that is not 0 for ||, 1 or 0 for !. An object or a reference counts as 1, a Bool object as its value, and everything undefined as 0. The right operand is evaluated only if the left one does not decide: otherwise none of its assignments, exceptions or undefined operations happens. if executes its first block exactly when the condition is not 0 and else the other one, unless the other way round, and the blocks see the variables as the condition left them.", "quantifier": "all conditions of any depth over all numeric expressions, object and reference variables and undef, all values of the variables, all blocks", "why_tests_cant": "Conditions nest without bound; the operators are compiled to nested jumps and to one shared hidden flag, so that a wrong distance or a reused flag shows up only in particular nestings with particular operand values.", "anchors": ["lib/SPVM/Builder/src/spvm_op.c:SPVM_OP_build_logical_and, SPVM_OP_build_logical_or, SPVM_OP_build_logical_not, SPVM_OP_build_if_statement, SPVM_OP_build_condition", "lib/SPVM/Builder/src/spvm_check.c:SPVM_CHECK_check_ast_syntax, SPVM_CHECK_check_ast_assign_unassigned_op_to_var", "lib/SPVM/Builder/src/spvm_opcode_builder.c:SPVM_OPCODE_BUILDER_build_opcode_list", "lib/SPVM/Builder/src/spvm_vm.c:SPVM_VM_call_method", "lib/SPVM/Builder/include/spvm_implement.h", "lib/SPVM/Document/Language/Operators.pm", "lib/SPVM/Builder/src/spvm_api.c:SPVM_API_get_bool_object_value"]}
{"id": "C63", "title": "Accepted programs are type safe", "statement": "While a program that the compiler accepts runs, every variable, field and array element of an object type holds undef or an object that can be assigned to that type, so `isa` of its type is true for it, and no assignment, field access, element access, cast, copy, concatenation, creation or call reads or writes outside of an object or interprets an object as one of another type; all other errors are exceptions that leave the variables as they are.", "quantifier": "all class hierarchies, all declared variable and field types, all sequences of accepted operations, all indexes and lengths", "why_tests_cant": "Objects get into places along arbitrarily long chains of assignments, covariant arrays, casts and calls through interfaces; a hole shows up only for a particular combination of types and order of operations.", "anchors": ["lib/SPVM/Builder/src/spvm_check.c:SPVM_CHECK_check_ast_syntax, SPVM_CHECK_check_assign, SPVM_CHECK_check_call_method, SPVM_CHECK_get_type", "lib/SPVM/Builder/src/spvm_opcode_builder.c:SPVM_OPCODE_BUILDER_build_opcode_list", "lib/SPVM/Builder/src/spvm_api.c:SPVM_API_isa, SPVM_API_elem_isa, SPVM_API_call_method_common, SPVM_API_make_read_only", "lib/SPVM/Builder/include/spvm_implement.h", "lib/SPVM/Document/Language/Types.pm"]}
{"id": "C64", "title": "Read-only strings never change", "statement": "A string literal yields a read-only string, make_read_only makes a string read-only, a read-only string stays read-only, and whatever an accepted program executes afterwards, its characters stay the same: setting a character needs a mutable string, and a read-only string never gets into a place of the type mutable string.", "quantifier": "all programs and executions as in C63, all strings, all points in time", "why_tests_cant": "The string can reach a place of mutable string type over arbitrarily many assignments, casts, fields, arrays and calls; that none of them lets it through is a statement about all of them in all orders.", "anchors": ["lib/SPVM/Builder/src/spvm_check.c:SPVM_CHECK_check_ast_syntax, SPVM_CHECK_check_assign, SPVM_CHECK_check_call_method, SPVM_CHECK_get_type", "lib/SPVM/Builder/src/spvm_opcode_builder.c:SPVM_OPCODE_BUILDER_build_opcode_list", "lib/SPVM/Builder/src/spvm_api.c:SPVM_API_isa, SPVM_API_elem_isa, SPVM_API_call_method_common, SPVM_API_make_read_only", "lib/SPVM/Builder/include/spvm_implement.h", "lib/SPVM/Fn.c:SPVM__Fn__memcpy, SPVM__Fn__memmove", "lib/SPVM/Document/Language/Operators.pm", "lib/SPVM/Document/Language/Types.pm"]}
{"id": "C65", "title": "Arguments and return values reach the other side of a call", "statement": "A parameter list is accepted exactly if its defaults are valid, no required parameter follows an optional one and its values fill at most 255 stack cells; a call is accepted exactly if it has enough but not too many operands and each can be assigned to its parameter. In a call that is accepted, every parameter starts with the value of its argument, field by field for multi-numeric types, or with its default value if the argument is omitted, also when the method is reached through an interface or a super class; no other variable of the method is touched. An instance method is not entered exactly if an object given is not of the type of its parameter. The variable a call is assigned to gets the value of the operand of return.", "quantifier": "all class hierarchies, all parameter lists and defaults, all operand lists, all contents of the frames and of the value stack, all pairs of a declared method and the one that runs", "why_tests_cant": "The stack position of a value depends on the widths of all parameters before it on both sides of the call, the number of omitted arguments, and which method runs; an offset error or an unset parameter shows up only for particular combinations and then often reads a plausible stale value.", "anchors": ["lib/SPVM/Builder/src/spvm_check.c:SPVM_CHECK_check_methods, SPVM_CHECK_check_assign, SPVM_CHECK_check_ast_syntax", "lib/SPVM/Builder/src/spvm_opcode_builder.c:SPVM_OPCODE_BUILDER_build_opcode_list", "lib/SPVM/Builder/src/spvm_api.c:SPVM_API_call_method_common", "lib/SPVM/Builder/src/spvm_op.c:SPVM_OP_build_method", "lib/SPVM/Builder/include/spvm_implement.h", "lib/SPVM/Builder/src/spvm_vm.c:SPVM_VM_call_method", "lib/SPVM/Document/Language/Class.pm"]}
{"id": "C66", "title": "A source is split into the documented tokens, each with its line number", "statement": "A source is accepted for tokenization exactly if it is UTF-8 and its ASCII characters are printable or white space but no carriage return. It is read to its end with at most five tokens for every byte. White space, comments and POD give no token. The longest operator that the text begins with is the token. A whole name is a keyword exactly if it is a documented one, and no method or field name is expected and no => follows; other names are symbol names, and names before => strings. Variables with and without braces, dereferences, the exception variable, here documents, string, single-quoted, character and numeric literals and __FILE__, __LINE__ and __END__ are recognized with their values; variables in a string literal give the tokens of a concatenation. The line number of every token is the number of line feeds before its end plus one, or is counted from a line directive.", "quantifier": "all sources, all texts of blanks, names, literals and documents, all token sequences, all states between two tokens", "why_tests_cant": "What a character means depends on everything before it and on how far the current token can be extended; a line count that drifts by one, a character swallowed after an operator or a keyword found inside a longer name appear only for particular neighbours.", "anchors": ["lib/SPVM/Builder/src/spvm_toke.c:SPVM_yylex, SPVM_TOKE_load_class_file", "lib/SPVM/Document/Language/Tokenization.pm"]}
{"id": "C67", "title": "private, protected, public and allow decide which classes can use a member", "statement": "A program that creates an object, uses a class variable, calls a method or accesses a field compiles only if the class in which the code is written (for an anon method, its outmost class) may do so: the class or member is public, or belongs to that class, or is protected and belongs to a super class of it, or belongs to a class that allows it. Every permitted use compiles. The member is the one the documented lookup finds: the named class, or the class the code is written in, or the first class from the invocant's type upwards. A declaration has the access control its attributes give, or the documented default, and contradicting attributes are refused.", "quantifier": "all class hierarchies, all members with all attributes, all allow statements, all places of use including anon methods", "why_tests_cant": "Access depends on four classes at once: the one the code is in, the one it is written in, the static type of the invocant and the declaring class; tests try a handful of the combinations.", "anchors": ["lib/SPVM/Builder/src/spvm_check.c:SPVM_CHECK_can_access, SPVM_CHECK_check_call_method, SPVM_CHECK_check_class_var_access, SPVM_CHECK_check_field_access, SPVM_CHECK_search_method, SPVM_CHECK_search_unmerged_field", "lib/SPVM/Builder/src/spvm_op.c:SPVM_OP_is_allowed, SPVM_OP_build_class, SPVM_OP_build_class_var, SPVM_OP_build_field, SPVM_OP_build_method, SPVM_OP_build_enumeration", "lib/SPVM/Document/Language/Class.pm"]}
{"id": "C68", "title": "The parser accepts exactly the documented language and builds the documented tree", "statement": "A sequence of tokens is accepted if and only if the documented grammar derives it, and the parse tree is the one the documented precedence and associativity select: there is never more than one such tree. Every other sequence is refused with a syntax error. The parser always ends, whatever the tokens are, and never reads outside its tables or pops more than is on its stack. Programs the documentation describes are not refused for their size or nesting.", "quantifier": "all sequences of token codes of any length, all values the tokens carry", "why_tests_cant": "The language is infinite and the tables of the generated parser resolve conflicts silently: that no other tree is built for any text and that no documented text is refused can only follow from an argument about all states and lookaheads.", "anchors": ["lib/SPVM/Builder/src/spvm_yacc.c:yyparse, yypact, yydefact, yytable, yycheck, yypgoto, yydefgoto, yyr1, yyr2, yytranslate", "yacc/spvm_yacc.y", "lib/SPVM/Document/Language/SyntaxParsing.pm:Grammer, Operator Precidence"]}
{"id": "C69", "title": "A compiler can be used again and again", "statement": "Compiling a class loads exactly the classes that are needed (the class itself, the classes the compiler always loads, and transitively every class named by use, require or extends), each once, from the class file set by the user or else from the first directory that has it. The compilation succeeds if and only if every needed class that is not merely required can be loaded and every type name is known, and then adds exactly these classes; a required class that is nowhere makes the else block be compiled and nothing else. A failed compilation leaves the classes of the compiler and of the runtime, their positions and later compilations as if it had not been tried. A corrected file compiles. Anon classes can be compiled any number of times. The compiler always ends.", "quantifier": "all class files, directories and sources (cyclic uses included), all histories of compilations, anon class compilations and changes of class files on one compiler", "why_tests_cant": "The use graph can be any finite graph with cycles and the effect of an attempt depends on all attempts before it: termination and the absence of traces of failed attempts are statements about every history.", "anchors": ["lib/SPVM/Builder/src/spvm_compiler.c:SPVM_COMPILER_compile, SPVM_COMPILER_compile_anon_class, SPVM_COMPILER_use_default_loaded_classes, SPVM_COMPILER_assign_basic_type, SPVM_COMPILER_add_class_file, SPVM_COMPILER_delete_class_file", "lib/SPVM/Builder/src/spvm_toke.c:SPVM_TOKE_load_class_file", "lib/SPVM/Builder/src/spvm_op.c:SPVM_OP_build_class, SPVM_OP_build_use, SPVM_OP_build_anon_method", "lib/SPVM/Native/Compiler.pm"]}
{"id": "C70", "title": "dump shows every object once and always ends", "statement": "For every object the dump operator gives a text that shows everything that can be reached from it: every object of a class is shown in full at the first place where it occurs and as a reference to its address at every later place, arrays and strings are shown in full with their elements and characters, characters that cannot be printed and bytes that are no UTF-8 are shown as hexadecimal numbers, weak references like others, and the nesting is shown by indentation. dump always ends, whatever circles of references there are, and reads no memory outside of the objects.", "quantifier": "all object graphs of any size and shape, with shared objects, circles, weak references, nested arrays and strings of arbitrary bytes", "why_tests_cant": "The graphs are unbounded and cyclic: that the recursion ends and that no object is left out or shown twice is an induction over every graph.", "anchors": ["lib/SPVM/Builder/src/spvm_api.c:SPVM_API_dump_no_mortal, SPVM_API_dump_recursive, SPVM_API_get_object_no_weaken_address", "lib/SPVM/Builder/src/spvm_utf8.c:SPVM_UTF8_iterate", "lib/SPVM/Document/Language/Operators.pm:dump Operator"]}
{"id": "C71", "title": "The declarations in a class give the members they describe", "statement": "A class compiles exactly when its declarations keep the documented rules (one version statement with a well-formed version string, no member declared twice, at most one accessor attribute, int literals in enumerations, the rules of interfaces and multi-numeric types, of destructors and of methods without blocks). Once it has compiled, every declaration gives the member it describes and nothing else: the items of an enumeration return 0, or one more than the item before, or the value given; a reader returns the value of its variable or field and changes nothing; a writer stores the value, narrowed to the declared type, and changes nothing else; a method is called by its name; the version is the string of the version statement. Compilations before, successful or not, make no difference.", "quantifier": "all lists of declarations of any length in all categories of classes, all values and states of variables and fields, all histories of compilations with one compiler", "why_tests_cant": "Declarations combine without bound and names, values and histories are arbitrary; a test fixes one class with one history.", "anchors": ["lib/SPVM/Builder/src/spvm_op.c:SPVM_OP_build_class, SPVM_OP_build_enumeration, SPVM_OP_build_enumeration_item, SPVM_OP_build_class_var, SPVM_OP_build_field, SPVM_OP_build_method", "lib/SPVM/Builder/include/spvm_compiler.h:current_enum_value", "lib/SPVM/Document/Language/Class.pm:Version Declaration, Class Variable Definition, Field Definition, Enumeration Definition, Method Definition"]}
{"id": "C72", "title": "Generated C code looks every name up once and under an identifier of its own", "statement": "In the C code generated for a precompiled method, every class, class variable, field and method the method mentions is looked up by its own name, in exactly one declaration, and each use of it refers to that lookup; different methods become C functions with different names.", "quantifier": "all methods with any number of mentions of any classes, class variables, fields and methods whose names the language accepts", "why_tests_cant": "The identifiers are made from arbitrary names and an entity is skipped when its identifier occurs anywhere in the text written so far; whether two names collide can only be settled for all names.", "anchors": ["lib/SPVM/Builder/src/spvm_precompile.c:SPVM_PRECOMPILE_build_method_source, SPVM_PRECOMPILE_build_method_declaration, SPVM_PRECOMPILE_contains_access_id, SPVM_PRECOMPILE_replace_colon_with_under_score, SPVM_PRECOMPILE_add_basic_type, SPVM_PRECOMPILE_add_class_var, SPVM_PRECOMPILE_add_field_offset, SPVM_PRECOMPILE_add_method", "lib/SPVM/Builder/src/spvm_toke.c:names of classes and symbols"]}
{"id": "C73", "title": "A precompiled method does what the interpreter does", "statement": "A method with the precompile attribute behaves like the same method in the interpreter: it calls the same operations with the same values in the same order, takes the same branches, catches and passes on the same exceptions with the same stack traces, and leaves in the same state, also when the library is built in one process and used in another that numbers its classes differently.", "quantifier": "all methods (every operation code, any operands, any length), all runtimes at build time and at run time, all behaviours of the operations, all initial states, any number of steps", "why_tests_cant": "There are 394 operation codes with two independent implementations each, arbitrary control flow between them, and the numbering of classes at run time depends on what else is loaded.", "anchors": ["lib/SPVM/Builder/src/spvm_vm.c:SPVM_VM_call_method", "lib/SPVM/Builder/src/spvm_precompile.c:SPVM_PRECOMPILE_build_method_source", "lib/SPVM/Builder/include/spvm_implement.h", "lib/SPVM/Builder/src/spvm_string_buffer.c:SPVM_STRING_BUFFER_add_hex_char"]}
{"id": "C74", "title": "Typed Hash methods store and read numbers exactly", "statement": "set_int and its siblings store the number (reduced to the size for byte and short); get_int and its siblings return the stored number when the value has one of the documented types and throw otherwise; get_or_default returns the default exactly when the key is absent; delete_or_default removes the key exactly when it returns the stored value and changes nothing when it throws; to_array lists the pairs in the order asked for; copy gives an independent hash with the same pairs.", "quantifier": "all histories of typed and untyped calls, all keys and values, all hash functions and seeds, all eight types", "why_tests_cant": "It ranges over all histories, all numbers of all sizes and all combinations of setter and getter.", "anchors": ["lib/SPVM/Hash.spvm:get_long", "lib/SPVM/Hash.spvm:get_or_default_int", "lib/SPVM/Hash.spvm:delete_or_default_int", "lib/SPVM/Hash.spvm:to_array", "lib/SPVM/Hash.spvm:copy"]}
{"id": "C75", "title": "Data given to SPVM from Perl comes back unchanged", "statement": "An array made from a Perl list with new_byte_array \u2026 new_double_array (and the unsigned variants), new_string_array, new_object_array, new_muldim_array or new_mulnum_array has the length of the list, and to_elems returns the same elements: the same number reduced to the size of the type, the same bytes, the same objects, the same fields. Values that are not documented are an error and change no existing object. to_bin of an array made from a binary is the binary, and a binary of the wrong length is an error. set followed by get returns the element and leaves every other element alone; an index outside the array is an error.", "quantifier": "all Perl values, lists of any length below 2^31, all element types and dimensions, all heaps, all behaviours of Perl's own number conversions, all indexes", "why_tests_cant": "It ranges over all Perl values and lists, all numbers of every type and every state of the heap.", "anchors": ["SPVM.xs:SPVM_XS_UTIL_new_int_array", "SPVM.xs:SPVM_XS_UTIL_new_string_array", "SPVM.xs:SPVM_XS_UTIL_new_object_array", "SPVM.xs:SPVM_XS_UTIL_new_mulnum_array", "SPVM.xs:to_elems", "SPVM.xs:to_bin", "SPVM.xs:set", "SPVM.xs:get"]}
{"id": "C76", "title": "A method called from Perl receives the values given and its results come back", "statement": "A method called from Perl through a class name or an object is the class method or instance method meant by that invocant and name (with CLASS::NAME the method of that class), and nothing else is called. It receives exactly the arguments given: numbers reduced to the size of the parameter, the bytes of strings, the objects themselves, copies of lists and hashes. A wrong number of arguments or an argument that the parameter does not take is an error, the method is not called and no existing object changes. Perl gets the value the method returns, the scalars behind references hold what the method left in them, and an exception of the method dies with its text and its error id. The caller's strings are not changed.", "quantifier": "all programs, methods with any list of parameters and any return type, all invocants and names, all Perl values as arguments, all heaps, every behaviour of the called method", "why_tests_cant": "It ranges over all signatures, all argument values and everything the called method may do.", "anchors": ["SPVM.xs:call_method", "lib/SPVM/ExchangeAPI.pm", "lib/SPVM/Builder/src/spvm_api_basic_type.c:SPVM_API_BASIC_TYPE_get_method_by_name", "lib/SPVM/Builder/src/spvm_api.c:SPVM_API_get_instance_method"]}
{"id": "C77", "title": "A method body of numeric statements leaves the variables the documentation says", "statement": "A method body made of numeric expressions, variable declarations, conditions, if and unless with elsif and else, while and for loops, switch with case, default and break, next, last, return with and without a value, blocks, eval and calls of other methods is compiled to operation codes that, executed with the arguments of the method on the argument stack, end exactly when the statements end according to the documentation, with the same values in all variables, the same message in the exception variable, the same return value, and with an exception exactly if the statements throw one that is not caught. A body that comes to its end without a return returns the initial value of the return type. The compiled method never leaves its operation codes.", "quantifier": "all method bodies of any size and depth, all values of the variables, executions of any length, including those that do not end", "why_tests_cant": "It ranges over all programs of this kind and all their inputs, and over loops with any number of rounds; tests run a few programs.", "anchors": ["lib/SPVM/Builder/src/spvm_opcode_builder.c:SPVM_OPCODE_BUILDER_build_opcodes", "lib/SPVM/Builder/src/spvm_op.c:SPVM_OP_build_if_statement", "lib/SPVM/Builder/src/spvm_op.c:SPVM_OP_build_for_statement", "lib/SPVM/Builder/src/spvm_check.c", "lib/SPVM/Builder/src/spvm_vm.c:SPVM_VM_call_method"]}
{"id": "C78", "title": "Calls between numeric class methods do what the documentation says, at every depth", "statement": "In a program of class methods made of numeric statements (C77), a call evaluates its arguments from left to right, converts each to the type of the argument of the method, fills in the default values of the optional arguments that are left out, runs the body of the method on fresh variables that have the initial values of their types, and gives back the return value converted to the type of the variable it is assigned to; an exception that leaves the method leaves the call, with its message in the exception variable. Methods may be recursive. A call that is nested deeper than the limit throws the deep recursion exception, which can be caught as any other. The call ends exactly when this says so, with the same return value, exception variable and exception. A program with a call of an unknown method, too few or too many arguments, or arguments or a return value that cannot be assigned, is rejected.", "quantifier": "all programs of any number of mutually recursive methods, all arguments, all limits on the depth, executions of any length, including those that do not end", "why_tests_cant": "It ranges over all programs, all arguments and all depths of recursion; tests call a few methods.", "anchors": ["lib/SPVM/Builder/src/spvm_api.c:SPVM_API_call_method_common", "lib/SPVM/Builder/src/spvm_opcode_builder.c:SPVM_OPCODE_BUILDER_build_opcodes", "lib/SPVM/Builder/src/spvm_check.c:SPVM_CHECK_check_assign", "lib/SPVM/Builder/src/spvm_vm.c:SPVM_VM_call_method"]}
{"id": "C79", "title": "grep, map and map_expand call the callback once per element, in order, and return what it selects", "statement": "Fn->grep, Fn->map and Fn->map_expand give the elements of the array, each as it is when its turn comes, to the callback, one call per element and in order. grep returns the elements for which the answer was not 0, map the answers, map_expand the elements of the answers, always in order and in an array of the type of the given array. An exception of the callback, an answer that cannot be stored in such an array, and an undefined answer of map_expand end the function with an exception after that call; undefined arguments throw without a call. The only effects are those of the calls.", "quantifier": "all arrays, all callbacks (which may change the array and anything else, and may throw), all states", "why_tests_cant": "All callbacks with arbitrary effects and all lengths, including callbacks that change the array while it is walked.", "anchors": ["lib/SPVM/Fn.spvm:grep", "lib/SPVM/Fn.spvm:map", "lib/SPVM/Fn.spvm:map_expand", "lib/SPVM/List.spvm:push", "lib/SPVM/Builder/src/spvm_op.c:SPVM_OP_build_foreach_statement"]}
{"id": "C80", "title": "Option arrays: merging, checking names and sorting", "statement": "Options are arrays of names and values. Fn->merge_options returns the first options followed by the second; undef counts as no options, and an array of odd length throws. Fn->check_option_names returns if and only if every name in the options is one of the available names; otherwise it throws for the first name that is not, with that name in the exception. Sort->sort_options_asc puts the pairs in the order of their names, compared byte by byte, keeps the order of pairs with the same name, and throws for undefined options, an odd length and names that are undefined or not strings, without changing the array.", "quantifier": "all option arrays, all lists of available names, all hash functions", "why_tests_cant": "All arrays and names, including hash functions under which names collide.", "anchors": ["lib/SPVM/Fn.spvm:merge_options", "lib/SPVM/Fn.spvm:check_option_names", "lib/SPVM/Sort.spvm:sort_options_asc", "lib/SPVM/Hash.spvm:set_int"]}
{"id": "C81", "title": "INIT blocks run once, after those of the classes they depend on", "statement": "call_init_methods runs the INIT blocks of every class, interface and multi-numeric type, one type after the other; the blocks of a type run in the order of the source, and a return statement ends them. The parent class of a class, and then the classes it uses in the order of the use statements, are initialized before it, except those that themselves depend on it (cycles of use statements are allowed). Types that need only each other and come first are initialized before all others. However often INIT methods are called, whatever is loaded later, and whatever exceptions are thrown, the blocks of a type run at most once. An exception ends the initialization with this exception; if there is none, the blocks of all types ran.", "quantifier": "all class graphs with inheritance and use statements (including cycles), all effects and exceptions of the blocks, all histories of loading and initialization", "why_tests_cant": "All graphs, including cyclic ones, all block effects and all histories of load, initialization and failure.", "anchors": ["lib/SPVM/Builder/src/spvm_api.c:SPVM_API_call_init_methods", "lib/SPVM/Builder/src/spvm_api.c:SPVM_API_call_method_common", "lib/SPVM/Builder/src/spvm_check.c:SPVM_CHECK_check_methods", "lib/SPVM/Builder/src/spvm_op.c:SPVM_OP_build_class", "lib/SPVM/Native/API.c:SPVM__Native__API__call_init_methods"]}
{"id": "C82", "title": "Dynamic calls pass arguments and results as documented", "statement": "Native::MethodCall->call calls the method it was made for exactly once if the arguments fit: an object is passed as it is if its type can be assigned to the parameter, a numeric object (Byte, Short, Int, Long, Float, Double) for a number, a numeric array with one element per field for a multi-numeric value, and a numeric array of the right length for a reference, whose writes are seen in the array. Too few or too many arguments, an argument that does not fit, or an error id array whose length is not 1 throw an exception without calling the method or changing an object. An object returned is given back as it is, a number as a numeric object, a multi-numeric value as a numeric array, void as undef; an exception of the method is passed on with its text, and its error id (0 if there was none) is stored in the array given for it. Methods are found by class and method name or by the class of the instance, class methods only as class methods and instance methods only as instance methods; otherwise an exception is thrown.", "quantifier": "every method signature, every list of arguments, every set of objects, every body of the called method, with or without an array for the error id", "why_tests_cant": "signatures, argument lists and bodies are unbounded; tests call a few methods with a few arguments and on the caller's own stack only", "anchors": ["lib/SPVM/Native/MethodCall.c:SPVM__Native__MethodCall__call", "lib/SPVM/Native/MethodCall.c:SPVM__Native__MethodCall__new_method_with_env_stack_common", "lib/SPVM/Native/MethodCall.spvm", "lib/SPVM/Builder/src/spvm_api.c:SPVM_API_is_binary_compatible_object"]}
{"id": "C83", "title": "Immutable lists never change", "statement": "A list of Immutable::ByteList, ShortList, IntList, LongList, FloatList, DoubleList or StringList has, from its creation to the end of the program, the elements it was created with: those the array passed to new had at that moment, none for new without an array, zeros or undef for new_len. Nothing a program does afterwards changes them: writing to the array or to the strings the list was made from, to arrays returned by to_array, casting strings to mutable, making strings read-only, creating other lists. length yields the number of elements, get the element at an index and throws outside the list, to_array a new array with the elements. new_len throws for a negative length.", "quantifier": "every sequence of operations on strings, arrays and lists before and after the creation of the list, every array, every index", "why_tests_cant": "whether something aliases the internal array or its strings shows only in some later sequence of writes; tests compare the elements right after creation", "anchors": ["lib/SPVM/Immutable/IntList.spvm:new", "lib/SPVM/Immutable/IntList.spvm:get", "lib/SPVM/Immutable/IntList.spvm:to_array", "lib/SPVM/Immutable/DoubleList.spvm:to_array", "lib/SPVM/Immutable/StringList.spvm:new", "lib/SPVM/Builder/src/spvm_api.c:SPVM_API_make_read_only"]}
{"id": "C84", "title": "The destructor of an object is called exactly once, before its memory is freed", "statement": "For every object of a class with a DESTROY method (its own or an inherited one), DESTROY is called exactly once before the object is freed, and it is not called for an object that is still referenced. Objects of other classes are freed without a call. Nothing happens to an object after it was freed. So the callback of a Scope::Guard, or of defer, is called once for every guard.", "quantifier": "every program, every destructor body, every run, every object", "why_tests_cant": "destructors can create, store and drop objects, run inside other destructors, and meet objects that are half destroyed; the nestings are unbounded", "anchors": ["lib/SPVM/Builder/src/spvm_api.c:SPVM_API_assign_object", "lib/SPVM/Builder/src/spvm_api.c:SPVM_API_leave_scope", "lib/SPVM/Scope/Guard.spvm", "lib/SPVM/Document/Language/Class.pm:Destructor"]}
{"id": "C85", "title": "Copies of object arrays are element-wise clones and are equal to the original", "statement": "Array->copy_object gives the elements of the range, in order and one call each, to the cloner and returns the answers in a new array; an exception of the cloner or an answer of a wrong type ends it after that call, a wrong range throws without a call; without a cloner the references are copied. Array->equals_object gives the pairs in order to the equality checker until it answers 0 or throws, and is 1 exactly if it never answers 0; arrays of different lengths are different. With the default cloner and the default equality checker a copy of an array of points has new objects with the same values, none of them shared, and is equal to the original; equality of points is an equivalence.", "quantifier": "all arrays, ranges, cloners and equality checkers (which may change anything and may throw), all point objects", "why_tests_cant": "all callbacks with arbitrary effects, all lengths and all sharing of references inside an array", "anchors": ["lib/SPVM/Array.spvm:copy_object_with_proto", "lib/SPVM/Array.spvm:equals_object", "lib/SPVM/Cloner.spvm:default_cloner", "lib/SPVM/EqualityChecker.spvm:default_equality_checker", "lib/SPVM/Point.spvm:eq", "lib/SPVM/Point3D.spvm:eq", "lib/SPVM/Builder/src/spvm_api.c:SPVM_API_call_method_common"]}
{"id": "C86", "title": "The description of a program that the runtime answers is the program", "statement": "After any number of compilations the reflection API (runtime, basic type, class variable, field, method and argument functions, which the Native classes, the virtual machine and native code use) answers what was declared: every class is found by its id and by its name, its parent, files, version, flags, class variables, fields, methods, arguments, anonymous classes, INIT method and constant strings are those of the source, unknown names and indexes are answered with nothing, and compiling more classes changes nothing about the old ones. The destructor that is run for an object is the method DESTROY of its class or of the nearest class above it. A flag that was set on a method is the flag read back.", "quantifier": "all programs, all sequences of compilations, all names and indexes asked for", "why_tests_cant": "all programs and all orders in which their classes are met", "anchors": ["lib/SPVM/Builder/src/spvm_compiler.c:SPVM_COMPILER_build_runtime", "lib/SPVM/Builder/src/spvm_basic_type.c:SPVM_BASIC_TYPE_add_constant_string", "lib/SPVM/Builder/src/spvm_check.c:SPVM_CHECK_search_method", "lib/SPVM/Builder/src/spvm_api_basic_type.c:SPVM_API_BASIC_TYPE_get_field_by_name", "lib/SPVM/Builder/src/spvm_api_method.c:SPVM_API_METHOD_new_api", "lib/SPVM/Builder/src/spvm_api.c:SPVM_API_dec_ref_count"]}
{"id": "C87", "title": "A Sync::Mutex keeps threads apart under every schedule", "statement": "A thread between lock and unlock of a Sync::Mutex is alone: no other thread is between lock and unlock or between reader_lock and reader_unlock. What the mutex guards does not change under a thread that holds it, readers see only memory left by complete writer sections, and no update made under the lock is lost. Threads that lock and unlock in turn never block each other for ever and never fail, and the mutex is free when they have ended. A call that does not fit (unlock without lock, a second lock by the owner, unlock of the lock of another thread) throws an exception and does not harm the process.", "quantifier": "all numbers of threads, all programs of the threads, all schedules", "why_tests_cant": "the schedules are chosen by the operating system and there are unboundedly many", "anchors": ["lib/SPVM/Sync/Mutex.c:SPVM__Sync__Mutex__lock", "lib/SPVM/Builder/src/spvm_api_mutex.c:SPVM_API_MUTEX_lock", "lib/SPVM/Builder/src/spvm_mutex.c:SPVM_MUTEX_lock"]}
{"id": "C88", "title": "A build of a native or precompiled class is made from the files as they are", "statement": "After any history of edits and builds, building a class (spvm, spvmcc, make of a distribution) leaves the generated source, object files and library that a build in an empty build directory would make. Building again writes nothing, building never changes a source file, and with force the result does not depend on what was there. Every method has a C function name of its own and every native source an object file of its own.", "quantifier": "all projects, all contents, all sequences of edits and builds and the times they happen at, all class and method names", "why_tests_cant": "it depends on the whole history of file times", "anchors": ["lib/SPVM/Builder/Util.pm:need_generate", "lib/SPVM/Builder/CC.pm:compile_class", "lib/SPVM/Builder/CC.pm:link", "lib/SPVM/Builder/CC.pm:build_precompile_class_source_file", "lib/SPVM/Builder.pm:build", "lib/SPVM/Builder/Util.pm:create_cfunc_name"]}
{"id": "C89", "title": "An exception handler sees the thrown error ID, the message, and one trace line per method", "statement": "When `die ID, MESSAGE` is executed, control goes to the end of the nearest enclosing eval block of the running methods and nothing in between is executed. There, `eval_error_id` is ID and `$@` is MESSAGE (\"Error\" if it is undefined) followed by one line with the class, the method, the file and the line number for each method from the one that threw to the one that catches, innermost first. An eval block begins with `$@` undefined and `eval_error_id` 0, and `eval_error_id` of a method is not changed by the methods it calls. A native method's `env->die` throws the formatted message followed by its place.", "quantifier": "all programs built from die, eval, calls, assignments to $@ and reads of $@ and eval_error_id, all messages, IDs, lines and nesting depths; all formats and arguments of env->die", "why_tests_cant": "The trace depends on the whole dynamic chain of calls and eval blocks; a test fixes one chain and one message.", "anchors": ["lib/SPVM/Builder/src/spvm_api.c: SPVM_API_new_stack_trace_no_mortal, SPVM_API_die, SPVM_API_call_method_common", "lib/SPVM/Builder/src/spvm_vm.c: GOTO_END_OF_EVAL_ON_EXCEPTION, GOTO_END_OF_METHOD_ON_EXCEPTION, SET_ERROR_ID", "lib/SPVM/Builder/src/spvm_op.c: SPVM_OP_build_die_statement", "lib/SPVM/Document/Language/ExceptionHandling.pm"]}
{"id": "C90", "title": "Array->equals, copy_any_numeric and the boxing functions work on the elements of arrays of every type", "statement": "Array->equals returns 1 exactly when both arrays are undef, or have the same type and equal elements (numbers; strings by content, or by reference if $shallow; objects by the default equality checker, or by reference), 0 otherwise, and throws for what is not an array. Array->copy_any_numeric returns a new array with exactly the elements of a valid range and throws for every other range. Array->to_object_array_* makes one new object per number, in order, without touching other objects; Array->to_array_* gives the numbers back and throws if an element is undef.", "quantifier": "all arrays of numeric, multi-numeric, string and object types, all contents, offsets and lengths", "why_tests_cant": "The functions compute byte counts from element sizes; a test fixes a few types and lengths, and a wrong size shows up only for particular lengths or contents.", "anchors": ["lib/SPVM/Array.spvm: equals, copy_any_numeric, to_object_array_int, to_array_int", "lib/SPVM/Fn.c: SPVM__Fn__memcmp, SPVM__Fn__memcpy"]}
{"id": "C91", "title": "What is deferred is done exactly once, when its scope ends, however it ends", "statement": "The callback given to Fn->defer, or to Scope::Guard->new, is called exactly once. It has been called before the statement after the block that the guard was made in, before the statement after the eval block if an exception leaves the block, and before the method call is over if a return or an exception leaves the method. Guards disturb nothing: the program has the same exceptions, the same $@ and the same eval_error_id as without them, even if a callback throws, which is printed as a warning.", "quantifier": "every program built from statements, nested blocks, eval blocks, method calls, returns, exceptions and guards, whose callbacks are again such programs, at every call depth", "why_tests_cant": "the ways in which blocks, exceptions, returns and guards can be nested are unbounded, and callbacks may contain guards themselves; tests show a few nestings", "anchors": ["lib/SPVM/Fn.spvm: defer", "lib/SPVM/Scope/Guard.spvm: new, DESTROY", "lib/SPVM/Builder/src/spvm_api.c: SPVM_API_leave_scope_local, SPVM_API_assign_object, SPVM_API_call_method_common", "lib/SPVM/Builder/src/spvm_opcode_builder.c: SPVM_OPCODE_BUILDER_build_opcode_list", "lib/SPVM/Builder/src/spvm_check.c: SPVM_CHECK_check_ast_if_block_need_leave_scope"]}
{"id": "C92", "title": "Arrays of complex numbers are the sequences of their parts", "statement": "For Complex_2d and Complex_2f, new_array_from_pairs gives the array whose elements have the numbers at the even positions as real parts and the numbers behind them as imaginary parts, and throws for an odd length. to_pairs gives these pairs back. to_re_array and to_im_array give the real and the imaginary parts in order. new_array_from_re_array and new_array_from_im_array give numbers with the given part and zero for the other.", "quantifier": "all arrays of float and double numbers and of complex numbers, of every length", "why_tests_cant": "the functions copy bytes with a length computed from the number of elements; a test fixes a few lengths and contents, and the size overflows only for large arrays", "anchors": ["lib/SPVM/Complex_2d.spvm: new_array_from_pairs, new_array_from_re_array, new_array_from_im_array, to_re_array, to_im_array, to_pairs", "lib/SPVM/Complex_2f.spvm: the same methods", "lib/SPVM/Fn.c: SPVM__Fn__memcpy"]}
{"id": "C93", "title": "The name of a multi-numeric type says what it consists of", "statement": "A class with the mulnum_t attribute is accepted by the compiler exactly if it has 1 to 255 fields, all of the same numeric type, its name ends with an underscore, the number of the fields and the documented letter of that type, and it has no instance methods and no class variables. Therefore two accepted multi-numeric types with the same name have the same number of fields of the same type. Everything else is rejected with a message.", "quantifier": "all classes with the attribute mulnum_t: all names, all lists of fields, all methods", "why_tests_cant": "the names and field lists are unbounded; the check compares the end of the name by pointer arithmetic, which goes wrong only for names and lengths a test does not choose", "anchors": ["lib/SPVM/Builder/src/spvm_check.c: SPVM_CHECK_check_fields", "lib/SPVM/Builder/src/spvm_op.c: SPVM_OP_build_class", "lib/SPVM/Document/Language/Class.pm: Multi-Numeric Type Suffix"]}
{"id": "C94", "title": "The default comparator orders by cmp and puts undef first", "statement": "Comparator->default_comparator returns a comparator that compares two objects with the cmp method of the first and treats undef as less than every object and equal to undef; it throws exactly when cmp throws. If cmp is a total preorder, sorting an object array with it gives the undefined elements first and then the others, sorted by cmp, those that rank the same in their old order.", "quantifier": "all object arrays, ranges, and cmp methods", "why_tests_cant": "sortedness and stability for every array and every order cannot be tested; the interplay of undef with the order shows only for particular arrangements", "anchors": ["lib/SPVM/Comparator.spvm: default_comparator", "lib/SPVM/Comparable.spvm: cmp", "lib/SPVM/Sort.spvm: sort_object"]}
{"id": "C95", "title": "The unsigned dump of an array shows every element as the unsigned number with the same bits, and nothing is lost", "statement": "For every array of byte, short, int or long, Array->dump_unsigned_byte, _short, _int or _long returns a text of one line for each element in order, with the element read as an unsigned number of its width in decimal, commas behind all lines but the last, and the type and the address behind the closing bracket. The dump of undef is the text undef. Two arrays of the same type with the same dump have the same elements. This holds when memory suffices for twice the text.", "quantifier": "all arrays of the four element types of every length and all element values, all addresses, all memory limits with room for twice the text", "why_tests_cant": "the sign handling must be right for every value of every width, and the commas for every length; that no two arrays share a dump is a statement about all pairs", "anchors": ["lib/SPVM/Array.spvm: dump_unsigned_byte, dump_unsigned_short, dump_unsigned_int, dump_unsigned_long", "lib/SPVM/Format.spvm: sprintf", "lib/SPVM/Format.c: _native_snprintf_u, _native_snprintf_lu, _native_snprintf_p"]}
