# Formal model of SPVM — design

Source: `/repo` (yuki-kimoto/SPVM, pinned). The code was only read, never built or run.
Proof assistant: Lean 4.33.0 (`/verif/lean`, Lake project). No Mathlib module is imported so far.

## Layout

* `Verif/Base.lean` – outcomes (`ok`, `die`, `ub`), the state-and-outcome monad, checked `int32`/`int64` arithmetic,
  bounds-checked element access, allocation with a limit.
* `Verif/Model/*.lean` – executable models, function by function; each definition cites file and lines.
* `Verif/Spec/*.lean` – small independent specifications (sequences, maps, orders, notations, types, templates).
* `Verif/Lemmas/*.lean` – helper lemmas.
* `Verif/Props/*.lean` – the property theorems, each with an example that meets its hypotheses.
* `seeded/LOG.jsonl` – wrong programs the theorems were tested against. An edit counts as killed only if a theorem or lemma fails; edits that do not compile are left out, and builds that end without the error of a theorem are `inconclusive`.

## Conventions

* An SPVM exception is `Out.die msg`. C undefined behaviour (signed overflow, out-of-bounds access, unaligned access) is the
  distinct outcome `Out.ub`; it is never identified with an exception or with a value. A theorem that says `= .ok x` or
  `isDie` therefore also says that nothing undefined happens.
* Texts of exceptions are shortened (no interpolated values); no theorem depends on them.
* SPVM `int`/`long` values are `Int`; every addition, subtraction and multiplication the code performs on them goes through a
  checked operation that yields `ub` outside the type's range (the C code has plain signed arithmetic and the build does not
  pass `-fwrapv`). Where the code uses unsigned C arithmetic, `BitVec` or modular arithmetic is used.
* Objects' internal arrays are values (`List α`); aliasing through `get_array_unsafe` and similar is not modelled.
* A method on an object is a function `State → Out Result × State`: the state after an exception is kept, so that "a throw
  changes nothing" can be stated.
* Allocation of an array or string takes a `limit`: above it `new` throws, as `SPVM_IMPLEMENT_NEW_*_ARRAY` does. Theorems hold
  for every limit, with a stated bound where the code's own size computations need one.
* `while` loops and unbounded recursion take fuel; running out of fuel is `ub`, so a theorem that excludes `ub` proves
  termination as well.
* Where the code violates a property there is a theorem `..._violated` with a concrete witness, and the property is proved
  on the largest domain found (`_partial`, or stated as hypotheses of the theorem).

## Plan per property

| id | model | proof |
|----|-------|-------|
| C01, C02 | `Model/NumList`: IntList.spvm method by method, on Array.c memcpy/memmove and Array.spvm memset | refinement to `List α` operations (`Spec/Seq`), induction over histories; failure keeps the abstract sequence |
| C03, C04 | `Model/ObjList`: List.spvm ring buffer | refinement through the ring abstraction |
| C05, C06 | `Model/StrBuf`: StringBuffer.spvm | refinement to byte lists; lexicographic order |
| C07–C09 | `Model/Hash`: Hash.spvm buckets, chains, rehash, parametric in the hash function | invariant, refinement to `Key → Option Value` |
| C10–C12 | `Model/Sort`: merge sort with explicit temporary array; the comparator is a state machine that may throw | induction over run length; permutation at each exception point |
| C13, C45 | `Model/Rand`, `Model/ArrayOps` | modular arithmetic; permutation by induction over the swap loop |
| C14–C18, C21, C22, C46, C49–C52 | `Model/FnStr`, `Model/Str`, `Model/Utf8`: loops of Fn.spvm over byte lists | loop invariants |
| C19, C20 | `Model/Utf8`: decoder and encoder of Fn.c and spvm_utf8.c | case analysis over byte ranges, induction over strings |
| C23, C24 | `Model/ArrayC`, `Model/FnMem` | case analysis with overflow as outcome |
| C25, C26 | `Model/ArrayOps` | induction |
| C27 | `Model/Endian`: Fn.spvm 1689-1752; the byte order of the system is a parameter | list algebra |
| C28 | `Model/Packer`: Packer.spvm, the template parser included | induction over the items of a template |
| C29–C31, C47, C48 | `Model/VM`: operations of spvm_implement.h | integer arithmetic, list orders |
| C32–C34 | `Model/Heap`: objects, counts, weak back references, scopes, destructors | invariant by induction over histories |
| C35, C36 | `Model/Types`, `Model/TypeCache` | induction over the parent chain; cache invariant over interleavings |
| C37 | `Model/Call` | induction over call trees |
| C38–C42 | `Model/CHash`, `CList`, `CStrBuf`, `Alloc`, `Intern` | refinement to map, sequence, bytes, counters |
| C43 | `Model/NumStr`: conversions and `strtoll` | digit induction |
| C44 | `Model/Format` | induction over the pieces of a format |
| C53 | `Model/Fields`: field merging and offsets of spvm_check.c, field access | induction over declarations |
| C54, C55 | `Model/Flow`: op trees, opcode builder, lookup and dispatch of jumps; `Spec/Flow`: big-step semantics | shape of the code by induction over the tree; forward simulation; progress argument for runs that do not end |
| C56 | `Model/Vars`: stack of declarations, first-fit allocation, layout of the call frame; `Spec/Vars`: visibility by nesting depth | invariant over the events of the walk; allocation invariant; arithmetic of the areas |
| C57 | `Model/Conc`: each critical section of the runtime's lock is one step of a thread, releases are pending tasks; `Spec/Conc`: which places a thread may use | invariant (counts, back references, cleared fields) kept by each step of each thread; witnesses for an unlocked read and for destructors that set cleared fields |
| C58 | `Model/Cast`: the cast test, the choice of the operation and the operations, on the type model of C35; `Spec/Cast`: the tables of the documentation as rules, the values of a type, the result of a cast | case analysis on categories and dimensions (test = rules), typing by transitivity of assignability, round trips; witnesses for the failing casts |
| C59 | `Model/Literal`: the numeric part of the tokenizer over the bytes of the source, `strtoull`, the suffixes and range checks; `Spec/Literal`: the documented notations and the number they denote | the scan loops split the source (induction), `strtoull` = positional notation, case analysis on base and sign; soundness of accepted decimal literals; witnesses for the failing notations |
| C60 | `Model/StrLit`: the loops of the tokenizer for string, single-quoted string and character literals, escape characters, the walk through a variable expansion; `Spec/StrLit`: which text spells which bytes, the forms of an expansion | the loops accept exactly the grammar (both directions, induction on the derivation and on the text), round trips for every string of bytes, length bound, exact characterisation of the texts with undefined behaviour |
| C61 | `Model/Expr`: the trees of the parser for numeric expressions, the checks and conversions of the checker, its temporary variables, the choice of opcodes and the opcodes on the memory of variables; `Spec/Expr`: syntax, typing rules and evaluation by values | compiler correctness in two simulations by induction on the tree (source to checked tree, checked tree to opcodes); acceptance characterised exactly; frame, type safety and exceptions as corollaries |
| C62 | `Model/Logic`: the `if` trees that the parser builds for logical operators, their checks, the hidden condition flag, the jumps of the opcode builder and their execution; `Spec/Logic`: evaluation of conditions by values | compiler correctness by induction on the condition with an invariant on the flag and relocatable code; acceptance exact; short circuit, De Morgan and exchange of conditions as corollaries |
| C63 | `Model/Safety`: variables, fields, arrays and strings on a heap of typed objects; the checks of the compiler, the choice of the opcodes and their run time tests (on the type relations of C35 and the casts of C58); `Spec/Safety`: which object may be in a place of a type, by the documented relation | preservation of a typed-heap invariant by every accepted operation, and absence of undefined outcomes, by induction over executions; five counterexamples for what is not checked |
| C64 | the same model | invariant: the string is read-only, has its characters, and no place of the type `mutable string` refers to it; two counterexamples |
| C65 | `Model/Args`: the checks of parameter lists and of calls, the SET_STACK/GET_STACK/RETURN opcodes with their operand widths, their execution on a stack of tagged cells, the default values; on the type relations of C35, the variable layout of C56 and the argument loops of C37; `Spec/Args`: shapes of variables, validity of defaults, the frame a method starts with | both directions of the checks against the specification; correctness of the opcodes by induction over the parameter list on both sides with an invariant for the stack positions; three counterexamples |
| C66 | `Model/Toke`: the character checks of a source, `SPVM_yylex` with all its states between two tokens, on the literals of C59 and C60; `Spec/Toke`: spellings of the operators, blanks, keywords, names, here documents, variables in string literals, from the documentation | every kind of token for all texts around it; line numbers and the number of tokens by invariants over the calls of `SPVM_yylex`; counterexamples for `<`, `>`, `scalar`, `-`, directives, POD |
| C67 | `Model/Access`: the access checks of `new`, class variables, method calls and field accesses with the lookups before them, the merged fields, the attributes of declarations; `Spec/Access`: `Permitted` from the documentation | both directions for `new`, class variables, methods and fields declared in the invocant's type; inherited fields as far as the code agrees; counterexamples for anon methods, redeclared fields, own private fields in child objects, siblings and the `allow` of a child |
| C68 | `Model/Parse` and `Model/ParseTables`: the loop of `yyparse` over its tables, copied entry by entry, building a parse tree; `Spec/Parse`: the documented rules, the documented precedence, trees that group by it | an invariant of the stack (every entry is a well grouped derivation and every state knows the symbols below it) gives soundness, a measure gives termination, a walk of every rule from every state that can begin it gives completeness; the facts about the tables are checked by the kernel over all 558 states, 137 tokens and 287 rules |
| C69 | `Model/Load`: a compilation on the level of classes: the class files, the queue of uses, the loading of one class after the other, the registration, the rollback, the runtime; `Spec/Load`: needed, loadable, resolved, added, independent of the order of loading | partial correctness by an invariant of the loading loop (what is needed is loaded, queued or missing), termination by a potential that counts what can still be asked for, non-interference of failed compilations by running two compilers in lock step |
| C70 | `Model/Dump`: the recursion of `dump` over a heap of strings, arrays and objects, with the string buffer and the table of addresses; `Spec/Dump`: pictures (trees) of an object, first places in the order of the text, the text of a picture | the text is that of a picture and every picture gives its text (two inductions, over the calls and over pictures); it ends by a measure: the objects not yet in the table, then the nesting of arrays |
| C71 | `Model/Decl`: what the parser and `SPVM_OP_build_class` make of the declarations (with the counter of enumerations that lives in the compiler), the generated methods as small programs and calls of them; `Spec/Decl`: the rules for a class, values of enumerations, version strings, what is in a variable after a store | the errors are a concatenation, each part empty exactly when a rule holds; then the table of methods is known and lookup finds the declared one by distinctness; histories by induction |
| C72 | `Model/PrecompName`: the identifiers, the text of the lookups and the search in that text, character by character; `Spec/PrecompName`: names, tidy names | where four underscores can be cut in a text (words do not end with one); an identifier found in the text is found in the identifier of a lookup, since every other piece of text lacks four underscores; then by its label and its parts |
| C73 | `Model/PrecompTable`: what the interpreter does and what the code generator writes for each of the 394 operation codes, taken from the two files; `Model/Precomp`: the loop of the interpreter, the generator, the meaning of the C code; `Spec/Precomp`: the method by names, what its instructions do | the tables agree case by case; the interpreter and the C code are each shown to run the method by names, in lock step, for every behaviour of the operations (a parameter); binary search against the cases; string literals read back |
| C74 | `Model/HashTyped`: the typed setters, getters, `_or_default` methods, `to_array`, `copy` on `Model/Hash` and `Model/Sort`; `Spec/HashTyped`: the map of C07 with the documented types | each call against the map, using the invariant of C07; sorting from C10; induction over histories; loop invariant of `to_array` and `copy` |
| C75 | `Model/Exchange`: the conversions of SPVM.xs between Perl scalars and objects on a heap with reference counts; Perl's own conversions are parameters; `Spec/Exchange`: what Perl sees of an element, in integers | loop invariants of the element loops; induction on lists; bytes of a number and back |
| C76 | `Model/CallMethod`: `call_method` of SPVM.xs: lookup, argument conversion onto the stack and into reference buffers, return value, references; the called method is an arbitrary function; `Spec/CallMethod`: which values a parameter takes and what the method and Perl get | induction on the parameter list with the heap relation `Same`; case analysis on types; lists for the method name |
| C77 | `Model/Body`: the translation of statements, joining the operation codes of expressions (C61), conditions (C62) and the jumps of statements (C55), and their execution on the memory of the numeric variables; `Spec/Body`: the documented meaning as a big-step relation on variables, `$@` and the return value; the arguments come from the argument stack, calls have a given meaning | simulation in both directions, by induction on the documented execution and on the execution of the compiled statements; C55, C61 and C62 for the parts |
| C78 | `Model/Body`: the codes of calls (arguments to the argument stack, the call, the return value), of the start of a method, default values, and the call itself with the limit on the depth; `Spec/Body`: calls in the big-step relation and programs with a limit on the depth; `Spec/Calls`: the argument stack | C77 for any meaning of the calls that agrees with the argument stack; then induction on the depth; for executions of unknown length, the limit of the calls as the number of operation codes grows, which agrees with the calls of some length at every step of an execution that ends |
| C79 | `Model/Callback`: the loops of the three functions on the list model of C03, with a callback that changes an arbitrary state; `Spec/Callback`: the sequence of calls as a relation (`Calls`) | induction over the calls with the representation invariant of the list; existence and uniqueness of the sequence of calls |
| C80 | `Model/Options`: the three methods on the models of C25 (merge), C01/C30 (Hash), C03 (List) and C10 (merge sort); `Spec/Options`: arrays of pairs (`spell`), names, order (`InOrder`) | the loops by induction over the pairs; the hash of available names by its abstract map; order and stability from C10 |
| C81 | `Model/Init`: insertion of the calls into the INIT methods, the initialized flags, the depth limit, the loop of call_init_methods, histories of loading and calling; `Spec/Init`: the visit order as an inductive relation (`Visits`), `Needs`, `replay` | the calls refine `Visits` by induction on the calls still allowed (unvisited classes bound the depth); the order facts by induction on `Visits`; histories by an invariant on the flags |
| C82 | `Model/MethodCall`: conversion of each argument, the call of an arbitrary method, storing of the error id, conversion of the return value, lookup of the method, the three calls by name; `Spec/MethodCall`: `Passed`, `AllPassed`, `Returned`, `IdStored` | case analysis per argument, induction on the argument list; the method body is universally quantified, so that it is called once and with these words is part of the equation; witnesses for the violations |
| C83 | `Model/Immutable`: heap of strings with read-only flag and of arrays, the references a program holds, `new`, `new_len`, `length`, `get`, `to_array` of the lists as the code runs them on the heap, `step`/`run` for programs; `Spec/Immutable`: operations and what a program sees | invariant over all programs (no list shares its array with the program, its strings are read-only and no variable of type mutable string holds them), each operation extends the heap without touching the lists; violations by running the program |
| C84 | `Model/Destroy`: the run of Model/Heap with a log of creations, calls of DESTROY, and ends of objects; `Spec/Destroy`: events, what must have happened before an event | erasing the log gives the run of the code (induction on the depth of calls); invariant of heap and log; calls and ends of destructions balance in every command; with the invariant of C32, count 1 at the call means that no place holds a strong reference, and that the object is not being destroyed already |
| C85 | `Model/CloneEq`: copy_object, equals_object with any cloner and checker; default cloner and checker, Point and Point3D with the check of arguments of instance methods; `Spec/CloneEq`: sequence of comparisons, values of points | induction over the sequence of calls (that of C79, and a similar one for pairs); the heap only grows under the default cloner |
| C86 | `Model/Reflect`: constant string pool of a class, SPVM_COMPILER_build_runtime with pointers and zeroed blocks, the getters of the API, the order in which class names get ids; `Spec/Reflect`: what the answers must be | invariant of the pool (every string is at its offset with its NUL), induction over the loop of basic types and over the sequence of compilations |
| C87 | `Model/Mutex`: the four methods of Sync::Mutex through SPVM_MUTEX to the rwlock calls, threads as lists of instructions over a shared memory, an arbitrary schedule; `Spec/Mutex`: disciplined use, which mode a thread is in, sections that keep a condition | invariant over the schedule (writer excludes readers, the code of each thread fits the mode it is in), measure of remaining code for progress, sum invariant for updates |
| C88 | `Model/Build`: need_generate, generation of the precompile source, compilation and link over a file system with times and a clock, histories of edits, removals, waits and builds; create_cfunc_name and the object file name; `Spec/Build`: the empty build directory, calm histories | invariant: every output has the contents a clean build would give it, or a source it depends on is newer; induction over histories and over the list of sources; unique decoding of the joined names |
| C89 | `die`, eval blocks, calls with their depth, the on-exception opcodes, the stack trace, `env->die` with its two buffers (`Model/Except`) | simulation of a semantics in which an exception carries its message and the places it passed (`Spec/Except`), by induction on the executed tree; `printf` is a homomorphism for formats that use up their arguments |
| C90 | `Array->equals`, `copy_any_numeric`, `to_object_array_*`, `to_array_*` over the models of `Fn->memcmp` and `Fn->memcpy` (`Model/ArrayAny`) | blocks of one size are determined by their bytes; loop invariants; the theorems of C24 and C25 for the functions that are called |
| C91 | `Model/Guard`: a language with blocks, eval blocks, calls, returns, exceptions and `defer`; the mortal stack of a method, `leave_scope_local`, the call of a destructor with `$@` saved and restored, the warning. A guard carries what its destruction does, so callbacks may contain guards. | Guards are numbered; the number of times each is made, called and waiting is an invariant of execution (induction on the program, with the invariant inside the guards); a simulation shows that removing the guards changes neither `$@` nor the error. |
| C92 | `Model/Complex`: the array functions of `Complex_2d` and `Complex_2f` over the model of `Fn->memcpy` (C24), with the element size as a parameter | the memory of complex numbers and of their pairs is the same bytes; blocks of one size are read back from the bytes; a loop invariant for the functions that copy one part |
| C93 | `Model/Mulnum`: the checks of multi-numeric types in `SPVM_OP_build_class` and `SPVM_CHECK_check_fields`, with the pointer arithmetic and `strstr` of the name test | the search in a text of the same length is equality, so the test is the documented end of the name; digits contain no underscore, so the end of a name can be read in one way |
| C94 | `Model/DefaultCmp`: the comparator of `default_comparator`, the `cmp` method chosen by the class of the first object | undef first is a total preorder if `cmp` is; with C10 the sorted list is split into its undefined and its defined part |
| C95 | `Model/DumpU` (the four methods on top of the `sprintf` of C44, the operator `.` with its limit, `&` on 32 bits) | the loop by induction over the rest of the array with C44 for each number; `%p` from the push lemmas of C44; the dump is read back by splitting at the first byte that is not a digit |

Every listed property can be expressed in the model; none is `not_applicable`.

## What is modelled, and how it is simplified

* **Heap** (C32–C34): one thread; reference counts are unbounded naturals (the code has a 32-bit counter); addresses of new
  objects are fresh; the body of a destructor is an arbitrary list of heap operations. The heap has its own result type with a
  separate outcome for a nesting limit.
* **Types** (C35, C36): a `World` is the table of basic types after the compiler's checks (`Wf` lists the checks used). The
  cast requirement (spvm_type.c 1378-1813) and access control (spvm_check.c 3962 onwards) are not modelled.
* **TypeCache** (C35): each critical section is atomic; schedules of any number of threads are arbitrary interleavings of them.
* **Call** (C37): a method body is a tree of calls, with branching on exceptions; arguments are checked with an abstract `isa`.
* **Fields** (C53): a class is the chain of the declaration lists from the root class down.
* **Flow** (C54, C55): operators other than control flow are abstract (`act`: cannot throw; `call`: can throw); argument setup and
  the exception checks' messages are left out; op trees are those the grammar builds, with the passes of spvm_check.c that change
  them (condition moved behind the increment, sorted cases, added default, need of `LEAVE_SCOPE`). Releasing a variable sets it to
  `undef` (C32 has the effect on the object). The partial theorems exclude an `eval` inside an `eval` and object variables declared
  in branches of `&&`/`||` or in conditions and increments of loops; there the property is violated (three `_violated` theorems).
* **Vars** (C56): of the op tree only blocks, declarations and uses of variables are kept, in the order of the walk; access control of
  class variables is left out. Fails only if the frame has 2^31 bytes or more (`int` overflow, one `_violated` theorem).
* **Conc** (C57): the lock is taken to exclude; memory is sequentially consistent; strings and numbers are left out; object arrays are
  objects with fields. Partial: holds for schedules without a data race on the place of a reference, and in which no destructor sets a
  field of an object that is being destroyed; three `_violated` theorems show that it fails otherwise, and one that `DESTROY` can run twice.
* **Cast** (C58): conversions between numbers and strings are parameters (they are C22, C43, C47); objects are a type, a read-only flag and
  contents. Partial: five families of casts fail and are proved to (`(mutable string)` of an `object`, `(int[])` of an `int`,
  `(Int)` of an `Int`, `(string)` of an undefined `byte[]`, unchecked casts to interfaces).
* **Literal** (C59): the source is the list of bytes from the current position on; a compilation error is an exception; `strtof` and `strtod` are
  parameters. Partial: `-0x80000000` overflows, `0x` at the end of the source is read past its end, `0x-5L`, `0x 5` and `0b` are accepted,
  `1.5-2` and `5-3` are not read as differences (all proved); hexadecimal floating point literals are modelled but only their
  safety is proved.
* **StrLit** (C60): acceptance and value are characterised exactly. Partial: `"abc\` , `q'abc\`, `'` and `'\` at the end of the source are read past
  the terminating NUL; `"$foo}"` is read in an endless loop; `"$x->[0]->"` loses its arrow; `\8` and `\9` are accepted (all proved).
  The tokens of the variable and of the concatenation are C66's.
* **Expr** (C61): correctness of the compilation of every numeric expression that does not use a variable as an operand which a later operand assigns
  to, and does not assign a sequence that ends in a sequence. Both exceptions are bugs of the code or gaps of its documentation, with proved
  witnesses: `$x + ($x = 5)` reads `$x` late, `$x = (7, $y--)` leaves `$x` unchanged. Floating point operations are parameters; object types,
  fields, array elements and method calls as operands are not modelled here.
* **Logic** (C62): logical operators and `if`/`unless` on the numeric expressions covered by C61, object variables, reference variables and `undef`;
  other expressions that give objects are left out. A variable of type `Bool` that is `undef` is read through a null pointer
  (`bool_undef_violated`).
* **Type safety** (C63, C64): assignments, casts between object types, field and element accesses, `new`, `copy`, `.`, `make_read_only`, `Fn->memcpy`,
  arguments and return values.  A call is the passing of its arguments and of its return value, one operation each, with the declared method and the one that runs;
  variables of all frames are one numbered set.  Not modelled: references, multi-numeric types, class variables (as variables), `object[]` options `{...}`,
  native methods, numbers other than array elements; all fields are of object types.  `Ends` says that the comparison of the class hierarchy ends, which the compiler itself needs.
* **Calls** (C65): a cell of the value stack, a C union, remembers as what it was written, so reading it as something else is an undefined outcome; the frame is one array
  for each kind of variable.  Not modelled: reference counts of the arguments (C34, C57), native methods as callees, error messages.
* **Tokens** (C66): `SPVM_yylex` is modelled without the operation objects it makes.  In string literals the theorem covers plain variables, `${}`, `$$` and `$@`, not the
  chains of field and element accesses after `->` (their end is C60's).
* **Access control** (C67): compile-time checks only; a call through an overridden method at run time, and the native API, are not checked by the code at all.
* **Parser** (C68): the semantic actions (the construction of operation trees by `SPVM_OP_build_…`) are not part of the parser model; a reduction builds a tree node for its rule. The bison stacks are modelled as one list with the limit of 10000 entries; allocation failure is not modelled. Where the documented grammar is ambiguous and its precedence list says nothing (the `*` and `[` after a type, `:` after `my $x`, `{` after a `case` label, an empty block, `@{ }`) the specification states the choice the parser makes.
* **Loading classes** (C69): a source is what the parser reports to the compiler in order: uses, anon methods, an error, the end of the class with its name, its parent class and the type names in it. The checks of spvm_check.c other than the resolution of type names are an arbitrary predicate on the old and the new classes. The names the compiler keeps pointers to but does not own are modelled as freed when the caller frees them. File reading errors other than absence, and allocation failure, are not modelled.
  Violated by the code: a class with a syntax error is not loaded again after its file is corrected; a failed compilation deletes class files set by the user; after a failed anon class the next compilation reads freed memory; the tenth anon class overruns a block of 23 bytes; a class without a name in an ordinary file is a null pointer dereference; anon methods are refused in anon classes; `require` of a missing class hides the error for other uses of its name; a class named like a generated one makes the compiler load its file forever.
* **dump** (C70): `%p` is a parameter (C leaves it to the implementation; it must print different addresses differently), what `%g` prints is given with a floating point number. The depth of the C stack is not modelled.
  Violated by the code: an array that contains itself, directly or through other arrays, is shown without end; the closing brace of a multi-numeric element is not indented by its depth.
* **Decl** (C71): user-written statements are opaque, `isdigit` is taken for `0` to `9`, type checks of the generated bodies are left out (they are casts of a value to its own type, or of an int to byte or short).
  Violated by the code: the writer of a class variable `$value` compiles and does nothing (its argument has the same name); a field `self` cannot have a writer; after a syntax error inside an enumeration the next compilation with the same compiler numbers its first enumeration from where the broken one ended; an item of value 2147483647 is an overflow of a signed counter.
* **PrecompName** (C72): the part of the C text searched is modelled exactly; the rest of the C function is not text here.
  Violated by the code: names may end with an underscore. After a call of `get_` the lookup of `get` of the same class is left out (its identifier is the beginning of the other) and the C code does not compile; likewise the classes `Foo_` and `Foo`, and a class after a field of that name in a class whose name ends with `basic_type`. `Foo_->get` and `Foo->_get` have one identifier, so the wrong method is called, and their C functions have one name.
* **Precomp** (C73): the tables were extracted from the cases of the two `switch` statements by a script; local variables of a case and temporaries of the C code are replaced with what they stand for. What the functions and macros of spvm_implement.h do is a parameter, so nothing is assumed of them but that only `PUSH_MORTAL` and `LEAVE_SCOPE` move the mortal stack top. Not modelled: the set-up of the variables before and the return after, the decimal text of numbers, the C compiler.
  Violated by the code: names which are not tidy (C72) make a precompiled method call another method; the path of the file is written into the C code of `warn` without escapes, so a backslash in it changes the message and a quote makes the C code invalid.
* **HashTyped** (C74): creating the number objects is assumed to succeed; the unboxing cast is that of C58; the text of the exceptions is not modelled.
* **Exchange** (C75): little-endian memory; lists of 2³¹ elements and more are left out (`ub`); memory is assumed to be available; what is read from a blessed SPVM object used as a hash is left out; the type relation is a parameter (its rules are C50); names of multi-numeric types are replaced by their field lists.
* **CallMethod** (C76): the called method is any function on the stack cells, buffers and heap; it is assumed to leave a value of its return type and the buffers in place (hypotheses of the theorem); an SPVM object used as a hash for a multi-numeric parameter is left out (`ub`); addresses of messages and file names are left out; names contain no NUL; the length given to `newSVpv` for the empty message is not modelled; assertions are a parameter (`dbg`).
* **Body** (C77): object variables are left out; the calls of other methods are a parameter, related to what the documentation says about them by `Serves` and `Reflects` (`Spec/Calls`); declarations stand as statements of their own (`my $x : int;`), not inside conditions; a case value is a number; the stack trace in messages is left out; the rules of C61 and C62 on expressions and no `eval` inside `eval` are hypotheses; what happens after an operation that C does not define is a state of its own about which nothing is claimed.
* **Program** (C78): class methods only, called as statements (`&f(...);` and `$v = &f(...);`), numeric arguments and return values; native and precompiled methods, `INIT` and object arguments are left out; no argument may be a variable that a later argument of the same call assigns to: `late_argument_violated` shows that `&f($x, $x = 5)` passes 5 twice; `callMethod` gets a bound on the operation codes of each method, and the theorems hold for every bound (reflects) or all large bounds (ends).
* **Callback** (C79): the callback is any function on the state of the program that does not change the length of the array (no operation of the language does); the types it accepts are the parameter `accept`; memory for twice the result is assumed.
* **Options** (C80): the hash function is arbitrary; arrays are shorter than the largest int minus the steps of the loops; memory is assumed for the copies; available names are defined (an undefined one throws, even for empty options).
* **Init** (C81): the blocks are arbitrary changes of the state that call no INIT method themselves and do not come near the limit of 1000 nested calls; classes are numbers. Real violations: after an exception, a second call_init_methods succeeds although the blocks of the classes that were waiting never ran (init_after_error_violated); Native::API->call_init_methods drops the exception (init_api_violated); a chain of more than 1000 use statements cannot be initialized (init_deep_violated), so the theorems assume at most 999 types.
* **MethodCall** (C82): one runtime environment, so objects are always binary compatible; the wrapper objects for environment, stack and method, get_exception/set_exception and new_proto are left out; what call_method itself does (default values, for instance methods a check of the arguments) belongs to the called method, which is a parameter. Real violations: the array dimension of an argument is not checked, so a class method receives a string[] for a string (dimension_violated); a method that returns undef for an object type crashes the caller (undef_return_violated); with another stack than the caller's the return value is lost (separate_stack_violated).
* **Immutable** (C83): the seven classes share one model with the kind as parameter, the numbers are an arbitrary type (NaN and the conversions play no role); memory limits of arrays are the parameter limit; the static rule that only a variable of type mutable string can be written to is part of the operations; native code and Fn methods that write to a string whatever its type are left out. Real violations: Immutable::DoubleList->to_array returns the array of the list itself (double_to_array_violated); Immutable::StringList->new with an undef in the array passes undef to make_read_only, which reads its type (undef_string_violated).
* **Destroy** (C84): the model of C32 with a log; the log is not part of the code, that it does not change the run is proved (events_of_run). Real violation: an object to which DESTROY, or another destructor called in between, stores a new reference is not freed, and its DESTROY is called again later (revived_violated).
* **CloneEq** (C85): objects are not freed in this model; a failed allocation throws. Real violation: a Point is equal to a Point3D with the same x and y, but the comparison in the other order throws, since the second argument of Point3D#eq must be a Point3D (eq_not_symmetric_violated). Not modelled: subclasses of Point written by users; a subclass that does not override clone is cloned to a plain Point.
* **Reflect** (C86): opcodes and variable widths are opaque; interfaces are not part of the description built. Real violations: the address of an inherited destructor is computed from the method array of the parent, which is still null when the parent was met after the subclass, and that is the case whenever the subclass is loaded first (fresh_parent_after). The destructor is then silently never run if it is the first method of its class (inherited_destructor_violated), and otherwise a wild pointer is called (inherited_destructor_ub_violated); the member is_precompile_fallback of the method API holds the function of is_precompile (fallback_flag_violated). C84 is about classes whose destructor pointer is right.
* **Mutex** (C87): trusted: the POSIX semantics of pthread_rwlock_wrlock/rdlock/unlock (a waiting call is a step that does nothing and is tried again; an unlock by a thread that does not hold the lock is undefined; a second lock by the owner answers EDEADLK). Memory is sequentially consistent between locked sections. Only the POSIX branch is modelled; in the Windows branch a second lock waits for ever. Real violations: unlock of a mutex nobody holds and of one held by another thread are undefined behaviour (unlock_unheld_violated, foreign_unlock_violated), a second lock by the owner aborts the process through SAFE_PTHREAD (relock_violated); none throws.
* **Build** (C88): the precompiler, C compiler and linker are functions of what they read; one class without resources; a rule is atomic. Real violations: a file saved in the second in which the output was written is never noticed because the comparison is strict (same_second_violated); the value of an enum of another class is compiled in, but the file of that class is not an input (used_class_violated); a removed source stays in the library (removed_source_violated); files with an old time are not noticed (old_time_violated); class A_ method b and class A method _b share a C function (cfunc_name_clash_violated); a.c and a.cpp share an object file (object_file_clash_violated).
* **Except** (C89): `die` with a message that is undefined at run time dereferences a null pointer instead of throwing "Error" (`undef_message_violated`); `die 0, ...` throws nothing (`zero_id_violated`); methods at a call depth over 100 are missing from the trace (`deep_trace_violated`); `env->die` cuts a text over 511 bytes, place included, and a format over 255 bytes, which can split a conversion (`api_die_long_violated`, `api_die_format_violated`).
* **ArrayAny** (C90): `Array->equals` compares the bytes of float and double elements, so 0.0 and -0.0 differ (`equals_zero_violated`); byte counts from 2^31 overflow (`equals_big_violated`); the range check of `copy_any_numeric` overflows (`copy_any_overflow_violated`).
* **Scope guards** (C91): the callback of a guard is not called when its call would exceed 1000 levels (`deep_guard_violated`: only a warning is printed), hence the bound on the depth in the theorems. The order in which guards of nested blocks are called depends on how the blocks are left (`order_of_guards_violated`). A guard is assumed to be referenced by its variable only and not to be declared in an operand of `&&` or `||` (then it is released by the wrong block, `flow_branch_declaration_violated` of C55); running out of memory is not modelled; the theorems are about executions that end (an undefined message of `die` reads through a null pointer, C89).
* **Complex** (C92): from 2^27 complex numbers of type double on the byte count `8 * 2 * $length` overflows (`pairs_big_violated`), hence the bound on the size in the theorems about pairs. `to_string` is not modelled (it uses the conversion of floating point numbers to strings, C43).
* **Multi-numeric types** (C93): a name shorter than the end it must have makes the check read before the name (`short_name_violated`: `class A : mulnum_t { has x : byte; }`), and the message about fields of different types passes a string for `%d` (`mixed_fields_violated`, spvm_check.c 273); both are undefined in C, so what such classes get is only proved not to be acceptance. References as field types are left out.
* **Default comparator** (C94): with objects of several classes the comparator asks the class of its first argument, so it need not be an order even if every `cmp` is (`mixed_classes_violated`); the theorem about sorting assumes one order.
* **Unsigned dumps** (C95): the address printed for `%p` is a parameter below 2^64; the name of the array type is given by the element type. The four methods are one definition because their texts differ in the call of `sprintf` only.
* **NumStr** (C43): `strtoll` is modelled after the C standard and glibc, `snprintf` of integers is decimal notation. Conversions
  from and to floating point are not modelled.
* **Format** (C44): the texts of `%f` and `%g` and addresses are parameters; `%p` is modelled but not in the specification.
* **Packer** (C28): a number is its bytes; the two `List` objects are lists; concatenation of short length strings is assumed to
  find memory. `h` and `H` are modelled but not in the specification.
* **Hash** (C07–C09): the hash function is a parameter; siphash13 and the seed (Hash.c) are not modelled.

Not modelled at all: the parser, most of the semantic checker, the operation codes of operators, precompiled C, the rest of the native API (spvm_api.c 682-2590: class loading, dump, string and
exception helpers), the Perl side, `Sync::Mutex`, option handling (`merge_options`, `check_option_names`), `Array->to_array`,
`Array->copy_object_with_proto`, `Fn->grep`, `Fn->map`.

## Where the code departs from its property

Each line names the theorems that prove the departure; they carry the witness.

| property | theorems |
|---|---|
| C01 | `NumList.c01_replace_overflow_violated` |
| C03 | `ObjList.c03_insert_undef_violated`, `ObjList.c03_resize_stale_violated`, `ObjList.c03_reserve_throws_violated` |
| C04 | `ObjList.c04_push_type_violated` |
| C05 | `StrBuf.c05_set_length_stale_violated`, `StrBuf.c05_set_undef_violated` |
| C09 | `Hash.c09_rehash_drops_weak_violated` |
| C10 | `MSort.c10_index_overflow_violated` |
| C12 | `MSort.c12_fn_sort_violated` |
| C13 | `ArrayOps.c13_self_copy_violated` |
| C14 | `FnStr.c14_join_split_default_violated` |
| C17 | `FnStr.c17_substr_overflow_violated` |
| C21 | `FnStr.c21_hex_overflow_violated` |
| C22 | `FnStr.c22_powl_counter_violated` |
| C23 | `c23_memmove_overflow_violated` |
| C24 | `FnMem.c24_negative_offset_violated`, `FnMem.c24_overflow_violated` |
| C25 | `ArrayOps.c25_copy_overflow_violated`, `ArrayOps.c25_equals_nan_violated`, `ArrayOps.c25_memset_past_end_violated` |
| C26 | `ArrayOps.c26_repeat_violated` |
| C27 | `Endian.c27_overflow_violated` |
| C28 | `Packer.c28_order_violated`, `Packer.c28_count_overflow_violated`, `Packer.c28_hex_violated`, `Packer.c28_hex_star_violated`, `Packer.c28_hex_low_violated` |
| C32 | `Heap.c32_destructor_leak_violated`, `Heap.c32_destructor_use_after_free_violated` |
| C33 | `Heap.c32_destructor_use_after_free_violated` |
| C35 | `Types.c35_interface_transitivity_violated`, `Types.c35_cycle_check_hangs_violated`, `Types.c35_interface_recursion_violated` |
| C37 | `Call.c37_use_cycle_violated` |
| C38 | `CHash.c38_hash_overflow_violated` |
| C39 | `CList.c39_capacity_overflow_violated` |
| C41 | `Alloc.c41_empty_permanent_violated` |
| C43 | `NumStr.c43_not_a_numeral_violated` |
| C44 | `Format.c44_zero_pad_violated`, `Format.c44_width_violated`, `Format.c44_empty_string_violated`, `Format.c44_long_double_violated`, `Format.c44_width_overflow_violated` |
| C46 | `Utf8.c46_tr_beyond_violated`, `Utf8.c46_pattern_long_violated` |
| C47 | `VM.c47_left_shift_negative_violated` |
| C48 | `VM.c48_mulnum_size_overflow_violated` |
| C49 | `FnStr.c49_first_empty_violated` |
| C50 | `FnStr.c50_blank_violated`, `FnStr.c50_abs_violated` |
| C51 | `FnStr.c51_equals_range_violated` |
| C52 | `Utf8.c52_utf8_substr_invalid_violated` |
| C53 | `Fields.c53_fields_after_redeclaration_violated` |
| C55 | `Flow.flow_nested_eval_violated`, `Flow.flow_branch_declaration_violated`, `Flow.flow_condition_declaration_violated` |
| C56 | `Vars.vars_frame_violated` |
| C57 | `Conc.conc_shared_read_violated`, `Conc.conc_late_set_violated`, `Conc.conc_late_leak_violated`, `Conc.conc_destroy_once_violated` |
| C58 | `Types.cast_mutable_violated`, `Types.cast_array_violated`, `Types.cast_numeric_object_violated`, `Types.cast_undef_bytes_violated`, `Types.cast_interface_violated`, `Types.cast_interface_arrays_violated` |
| C59 | `Literal.literal_least_violated`, `Literal.literal_end_violated`, `Literal.literal_float_sum_violated`, `Literal.literal_hex_float_sum_violated`, `Literal.literal_hex_underline_violated`, `Literal.literal_hex_violated`, `Literal.literal_empty_violated`, `Literal.literal_minus_violated` |
| C60 | `StrLit.string_backslash_violated`, `StrLit.string_brace_violated`, `StrLit.string_arrow_violated`, `StrLit.string_raw_violated`, `StrLit.single_backslash_violated`, `StrLit.char_end_violated` |
| C61 | `Expr.late_read_violated`, `Expr.assigned_read_violated`, `Expr.lost_assignment_violated` |
| C62 | `Expr.bool_undef_violated` |
| C63 | `Safety.array_store_violated`, `Safety.multi_store_violated`, `Safety.mutable_cast_violated`, `Safety.make_read_only_undef_violated`, `Safety.box_violated`, `Safety.interface_violated` |
| C64 | `Safety.read_only_argument_violated`, `Safety.read_only_alias_violated` |
| C65 | `Args.optional_override_violated`, `Args.three_dimensions_violated`, `Args.wide_return_violated` |
| C66 | `Toke.swallowed_violated`, `Toke.minus_violated`, `Toke.lines_violated`, `Toke.line_directive_violated`, `Toke.accepted_violated`, `Toke.unclosed_violated` |
| C67 | `Access.allow_anon_violated`, `Access.anon_private_violated`, `Access.redeclared_field_violated`, `Access.private_own_violated`, `Access.sibling_violated`, `Access.child_allow_violated` |
| C68 | `Parse.parse_deep_violated`, `Parse.empty_block_violated` |
| C69 | `Load.corrected_file_violated`, `Load.class_file_kept_violated`, `Load.anon_class_after_error_violated`, `Load.freed_name_violated`, `Load.tenth_anon_class_violated`, `Load.unnamed_class_violated`, `Load.anon_method_in_anon_class_violated`, `Load.anon_method_position_violated`, `Load.missing_class_hidden_violated`, `Load.generated_name_hangs_violated` |
| C70 | `Dump.dump_array_cycle_violated`, `Dump.dump_mulnum_indent_violated` |
| C71 | `Decl.value_setter_violated`, `Decl.self_setter_violated`, `Decl.enum_after_syntax_error_violated`, `Decl.enum_max_violated` |
| C72 | `Precomp.lookup_missing_violated`, `Precomp.lookup_class_missing_violated`, `Precomp.lookup_label_violated`, `Precomp.lookup_wrong_violated`, `Precomp.symbol_clash_violated` |
| C73 | `Precomp.precompiled_names_violated`, `Precomp.precompiled_path_violated` |
| C75 | `Exch.c75_error_frees_violated`, `Exch.c75_index_violated`, `Exch.c75_set_type_violated`, `Exch.c75_set_scalar_violated`, `Exch.c75_get_kind_violated`, `Exch.c75_get_mulnum_violated`, `Exch.c75_to_elems_kind_violated`, `Exch.c75_to_bin_large_violated`, `Exch.c75_address_violated` |
| C76 | `Exch.c76_multi_dim_violated`, `Exch.c76_ref_assert_violated`, `Exch.c76_unknown_class_violated`, `Exch.c76_colon_violated`, `Exch.c76_name_changed_violated`, `Exch.c76_exception_text_violated` |
| C78 | `Expr.late_argument_violated` |
| C81 | `Init.init_after_error_violated`, `Init.init_api_violated`, `Init.init_deep_violated` |
| C82 | `MethodCall.dimension_violated`, `MethodCall.undef_return_violated`, `MethodCall.separate_stack_violated` |
| C83 | `Immutable.double_to_array_violated`, `Immutable.undef_string_violated` |
| C84 | `Destroy.revived_violated` |
| C85 | `CloneEq.eq_not_symmetric_violated` |
| C86 | `Reflect.inherited_destructor_violated`, `Reflect.inherited_destructor_ub_violated`, `Reflect.fallback_flag_violated` |
| C87 | `Mutex.unlock_unheld_violated`, `Mutex.relock_violated`, `Mutex.foreign_unlock_violated`, `Mutex.upgrade_blocks_violated` |
| C88 | `Build.cfunc_name_clash_violated`, `Build.object_file_clash_violated`, `Build.same_second_violated`, `Build.used_class_violated`, `Build.removed_source_violated`, `Build.old_time_violated` |
| C89 | `Except.undef_message_violated`, `Except.zero_id_violated`, `Except.deep_trace_violated`, `Except.api_die_long_violated`, `Except.api_die_format_violated` |
| C90 | `ArrayAny.equals_zero_violated`, `ArrayAny.equals_big_violated`, `ArrayAny.copy_any_overflow_violated` |
| C91 | `Guard.order_of_guards_violated`, `Guard.deep_guard_violated` |
| C92 | `Complex.pairs_big_violated` |
| C93 | `Mulnum.short_name_violated`, `Mulnum.mixed_fields_violated` |
| C94 | `MSort.mixed_classes_violated` |

## Trusted base

* Lean's kernel, and Lean's standard axioms as listed below; no axiom is added, and no `sorry`, `native_decide` or `bv_decide` is used.
* The reading of the source in the model's comments: nothing was executed, so that the model says what the code does is by inspection.
* The C semantics assumed: two's complement integers, 8-bit bytes, 64-bit `long` and pointers; allocation returns zeroed memory.

### Axioms of the theorems in MANIFEST.json

**`Classical.choice`, `Quot.sound`, `propext`** (500 theorems):
* NumList: c01_new_history, c01_new_len_history, c02_throw_changes_nothing, c02_bad_index_throws
* ObjList: c03_new_history_partial, c03_new_len_history_partial, c04_throw_changes_nothing_partial
* StrBuf: c05_new_history_partial, c05_new_len_history_partial, c05_throw_changes_nothing_partial, c06_cmp_eq, c06_clone
* Hash: c07_history, c07_new_pairs_history, c07_throw_changes_nothing, c08_enumeration, c09_weak_stays_partial, c09_rehash_drops_all_weak, c09_set_is_strong, c74_typed_history, c74_copy, c74_unsorted
* MSort: c10_stable_sort, c10_bad_arguments_throw, c10_sort_asc, c10_sort_desc, c10_sort_string_asc, c10_sort_string_desc, c10_fn_sort_asc, c11_any_comparator, c12_fn_sort_violated, c12_fn_sort_partial, sort_default_partial, mixed_classes_violated
* ArrayOps: c13_shuffle_object, c13_shuffle_numeric_partial, c13_every_permutation, c25_copy_partial, c25_merge, c25_memset_partial, c25_memset_throws, c25_memset_past_end_violated, c25_reverse, c25_reverse_numeric_partial, c25_reverse_involution, c25_slice_object_partial, c25_slice_numeric_partial, c26_repeat_partial, c26_repeat_string, c45_crand, c45_draws
* FnStr: c14_join, c14_split, c14_split_default, c14_split_limit, c14_join_split, c15_trim, c15_trim_idempotent, c16_index, c16_index_whole, c16_rindex, c16_rindex_empty, c16_contains, c17_substr, c17_substr_throws_partial, c17_substr_replace, c18_case, c18_idempotent, c21_hex_partial, c21_hex_throws, c21_hex_overflow_violated, c22_powi, c22_powl_partial, c22_powl_counter_violated, c22_pow_throws, c22_powi_overflow, c49_first_partial, c50_classes_partial, c50_to_lower_upper, c50_blank_violated, c50_abs_partial, c50_labs_partial, c51_chomp, c51_replace_chars, c51_equals_range_partial
* Utf8: c19_chr, c19_ord_chr, c19_ord, c20_decode, c20_decode_throws, c20_encode_injective, c20_to_code_points, c46_tr_partial, c46_tr_throws, c46_tr_in_range, c46_pattern_throws, c52_utf8_length, c52_to_utf8_chars, c52_utf8_substr, c52_utf8_substr_invalid_violated
* (top): c23_memmove_partial, c23_memcpy_partial
* FnMem: c24_memmove_partial, c24_memcpy_partial, c24_memcmp_partial, c24_negative_offset_violated, c24_overflow_violated
* Endian: c27_change, c27_involution, c27_bytes, c27_throws, c27_system
* Packer: c28_roundtrip, c28_unpack, c28_layout_partial, c28_type_throws, c28_too_few_throws, c28_bad_letter_throws, c28_a_without_count_throws, c28_order_violated, c28_count_overflow_violated, c28_hex_violated, c28_hex_star_violated, c28_hex_low_violated
* VM: c29_divide, c29_modulo, c29_int, c29_long, c30_get, c30_set, c30_set_checked, c31_operators, c31_numeric_cmp, c48_mulnum_fields
* Heap: c32_counts_exact_partial, c32_counts_exact_no_destructors, c32_alive_iff_referenced, c32_terminates_no_destructors, c32_clear_effect, c32_move_effect, c32_new_effect, c32_getField_effect, c32_setField_effect, c32_last_reference_frees, c32_not_last_keeps, c33_weak_refers_to_strongly_held, c33_weaken_effect, c33_unweaken_effect, c33_weaken_unweaken_roundtrip, c33_weaken_last_destroys, c33_weak_becomes_undef, c34_scope_partial, c34_scope_no_destructors, c34_scope_frees, c34_push
* Types: c35_assignable_iff, c35_converts_iff, c35_class_assignable, c35_reflexive, c35_transitive_partial, c35_interface_inherited, c35_accepted_acyclic, c35_interface_transitivity_violated, c35_interface_recursion_violated, c36_binary_search, c36_call_resolves, c36_inherits, c36_super_methods_callable, cast_accepts_partial, cast_result_partial, cast_type_safe_partial, cast_interface_partial, cast_box_round_trip, cast_bytes_round_trip, cast_mutable_violated, cast_interface_violated
* TypeCache: c35_cache_transparent, c35_cache_answers
* Call: c37_calls_end, c37_depth_restored, c37_runs, c37_init_once, c37_init_order, c37_default_classes_first
* CHash: c38_history_wrap, c38_history_partial
* CList: c39_history
* CStrBuf: c40_history
* Alloc: c41_calls_are_safe, c41_count, c41_blocks_distinct, c41_free_releases_all
* Intern: c42_interning
* NumStr: c43_roundtrip, c43_string_to_number, c43_no_number, c43_to_int_with_base, c43_to_long_with_base, c43_to_int_roundtrip, c43_not_a_numeral_violated
* Format: c44_sprintf, c44_literal, c44_width, c44_dangling, c44_bad_specifier, c44_long_double_violated
* Fields: c53_layout, c53_set_get, c53_new_zero, c53_redeclared
* Flow: switch_double_cases, switch_table_sorted, switch_lookup, flow_compiles, flow_ends_partial, flow_defined_partial, flow_reflects_partial, flow_switch_partial, flow_unique_partial
* Vars: vars_accepts, vars_errors, vars_meaning, vars_declaration, vars_in_frame, vars_frame_partial
* Conc: conc_defined_partial, conc_no_dangling_partial, conc_no_leak_partial, conc_count_partial, conc_freed_partial
* Literal: literal_int_partial, literal_least_violated, literal_decimal_sound, literal_bad_digit, literal_float_partial, literal_hex_float_partial
* StrLit: string_literal, string_literal_unique, string_literal_any, string_literal_length, string_expansion, string_expansion_forms, string_safe_partial, string_closed_safe, char_literal
* Expr: expr_correct_partial, compile_iff, pure_correct, expr_frame_partial, expr_types_partial, expr_throws_partial, logic_correct_partial, if_correct_partial, short_circuit_partial, compileCond_iff, if_congr_partial, body_compiles_partial, body_rejects_partial, body_ends_partial, body_reflects_partial, body_stays_partial, body_unique_partial, program_compiles_partial, program_rejects_partial, program_ends_partial, program_reflects_partial, program_unique_partial, program_stays_partial
* Safety: type_safe_partial, variable_isa_partial, box_violated, interface_violated, read_only_forever_partial, literal_frozen, read_only_argument_violated, read_only_alias_violated
* Args: method_accepts, call_accepted, call_rejected, call_accepts, call_binds_partial, dispatch_binds_partial, override_checked, return_value_partial, optional_override_violated, three_dimensions_violated, wide_return_violated
* Toke: line_numbers_partial, token_count, tokens_complete, operators_partial, angles_partial, blanks_skipped, line_directive, file_directive, lib_directive, directives_placed, keywords_found, names_found, fat_comma_names, outmost_found, variables_found, variable_unclosed, dollars_found, here_documents, here_refused, string_expansion_tokens, quoted_tokens, constant_tokens, characters_refused, source_characters, swallowed_violated, minus_violated, lines_violated, line_directive_violated, accepted_violated, unclosed_violated, line_directive_range
* Access: new_access_partial, class_var_access_partial, own_class_var, class_var_unknown, class_call_partial, instance_call_partial, super_call_partial, static_call_partial, field_access_partial, inherited_field_partial, field_unknown, attributes_accepted, sibling_violated
* Parse: parse_iff_partial, described_text, unambiguous, parse_ends, short_text, unknown_code, sums_group_left, parse_deep_violated, parens_accepted, product_first
* Load: compile_iff_partial, compile_anon_iff_partial, require_block, failed_compile_restores, classes_keep_their_place, failed_compile_harmless_partial, generated_name_hangs_violated
* Dump: dump_iff, dump_unique, dump_ends_partial, dump_plain_string, dump_array_cycle_violated
* Decl: accessor_types, class_ok_iff, enum_value, classVar_getter, classVar_setter_partial, value_setter_violated, field_getter, field_setter, self_setter_violated, user_method, no_other_method, class_version
* Precomp: lookups_sound, lookups_exact_partial, ident_unique_partial, symbol_unique_partial, lookup_missing_violated, lookup_class_missing_violated, lookup_label_violated, lookup_wrong_violated, symbol_clash_violated, interpreted, precompiled_says_partial, precompiled_as_interpreted_partial, precompiled_names_violated, precompiled_path_violated
* Exch: c75_binary, c75_mulnum_binary, c75_string_array, c75_object_array, c75_mulnum_array, c76_call_partial, c76_bad_argument
* FnCallback: calls_unique, grep_correct, grep_throws, map_correct, map_throws, map_type, map_expand_correct, map_expand_throws, map_expand_type, pure_callbacks
* Options: merge_options, merge_pairs, check_passes, check_throws, check_decides, check_available, sort_options, sort_options_throws, sort_options_cases
* Init: init_runs, init_complete, init_once
* MethodCall: call_returns_partial, call_refuses_partial
* Immutable: never_changes_partial, new_copies_partial, reads_contents, to_array_copies_partial, defined_partial
* Destroy: history, freed_or_alive, calls_counted, exactly_once_partial, no_destructor, unreferenced_at_call_partial, not_reentered_partial
* CloneEq: copy_all, copy_throws, copy_type, copy_address, copy_bad_range, equals_pure, eq_points_partial, copy_points, copy_equals_points
* Reflect: described, build_succeeds, old_types_kept, unknown_id, field_by_name, class_var_by_name, no_destructor, destructor_found_partial, own_destructor, inherited_destructor_partial, inherited_destructor_lost, fresh_parent_after, add_basic_type, inherited_destructor_violated, inherited_destructor_ub_violated
* Mutex: mutual_exclusion, no_error, holds_what_it_says, held_memory_stable, only_owner_writes, no_deadlock, released_at_end, adders_end, readers_see_whole_writes
* Build: incremental_eq_clean_partial, calm_edit_later, force_eq_clean, build_again, compiled_only_if_needed, need_generate_iff, cfunc_name_unique_partial, cfunc_name_unique_in_class, cfunc_name_clash_violated, object_file_clash_violated
* Except: caught_partial, caught_deep, eval_catches, chain_trace, eval_clears, api_die_partial, api_die_bounded, undef_message_violated, zero_id_violated, deep_trace_violated, api_die_long_violated, api_die_format_violated
* ArrayAny: equals_num_partial, copy_any_partial, to_array, box_round_trip
* Guard: call_guards_once_partial, block_guards_once_partial, eval_guards_once_partial, guards_do_not_disturb, callback_dies, order_of_guards_violated, deep_guard_violated
* Complex: from_pairs_partial, from_pairs_accepts_partial, to_pairs_partial, pairs_round_trip_partial, to_parts, from_parts, parts_of_pairs_partial
* Mulnum: accepted_iff, name_determines_fields, rejected_partial
* DumpU: dump_unsigned, dump_determines

**`Quot.sound`, `propext`** (120 theorems):
* NumList: c01_new_len_negative
* MSort: c10_index_overflow_violated, c11_no_memory, preorder_undefFirst, default_throws
* ArrayOps: c13_undef_throws, c13_self_copy_violated, c25_equals, c25_equals_eq, c25_equals_nan_violated, c26_repeat_throws, c45_seed_injective
* FnStr: c14_parts_clean, c16_throws, c18_throws, c49_first_empty_violated, c51_shorten, c51_shorten_null_char
* Utf8: c20_decoder_in_bounds, c52_throws
* FnMem: c24_read_only_never_written
* Packer: c28_undef_throws
* VM: c29_unsigned, c31_total_order
* Heap: c32_destructor_leak_violated, c32_destructor_use_after_free_violated
* Types: c35_cycle_check_hangs_violated
* TypeCache: key_inj
* Call: c37_too_deep, c37_args_checked, c37_defaults, c37_bad_args
* CHash: c38_hash_overflow_violated
* CList: c39_out_of_contract, c39_capacity_overflow_violated
* CStrBuf: c40_contains
* Alloc: c41_empty_permanent_violated
* NumStr: c43_to_string, c43_to_int_throws
* Format: c44_zero_pad_violated, c44_width_violated, c44_empty_string_violated, c44_width_overflow_violated
* Fields: c53_subclass_layout, c53_names_unique, c53_all_fields_partial
* Flow: flow_nested_eval_violated, flow_branch_declaration_violated, flow_condition_declaration_violated
* Vars: vars_apart, vars_mortal_apart, vars_condition_flag
* Conc: conc_destroy_once_violated
* Literal: literal_consumes, literal_safe_partial
* StrLit: single_literal, single_literal_any, single_safe_partial
* Expr: late_read_violated, late_read_converted, assigned_read_violated, lost_assignment_violated, bool_undef_violated, late_argument_violated
* Safety: array_store_violated, multi_store_violated, mutable_cast_violated, new_string_mutable, is_read_only_stays
* Access: new_refused, attributes, attributes_refused
* Load: class_files_differ
* Decl: stored_unique, history_partial, enum_max_iff
* Precomp: constant_string_literal
* Exch: c75_number_array_accepts, c75_number_array_shows, c75_integers_unchanged, c75_doubles_unchanged, c75_binary_copy, c75_string, c75_get_set, c75_get_set_object_partial, c76_lookup, c76_wrong_count, c76_not_found
* FnCallback: calls_exist
* Init: init_order, init_after_needs, init_first, init_deep_violated
* MethodCall: call_throws, lookup, calls_by_name, dimension_violated, separate_stack_violated
* Immutable: new_empty, new_len
* Destroy: events_of_run
* CloneEq: equals_calls, equals_no_calls, clone_point
* Mutex: no_lost_update, unlock_unheld_violated, relock_violated, foreign_unlock_violated, upgrade_blocks_violated, unguarded_update_lost
* Build: build_keeps_sources, object_file_unique_partial
* ArrayAny: equals_str, equals_obj, to_object_array, to_array_undef
* Complex: pairs_big_violated
* Mulnum: short_name_violated, mixed_fields_violated
* DumpU: dump_undef

**`propext`** (102 theorems):
* NumList: c01_replace_overflow_violated
* ObjList: c03_insert_undef_violated, c03_resize_stale_violated, c03_reserve_throws_violated, c04_set_throw_changes_nothing, c04_push_type_violated
* Hash: c09_rehash_drops_weak_violated
* FnStr: c14_join_throws, c14_join_split_default_violated, c14_split_unique, c14_split_throws, c15_trim_undef, c51_equals_range_violated
* Utf8: c20_look, c46_tr_beyond_violated, c46_pattern_long_violated, c46_throws
* (top): c23_undef_throws
* FnMem: c24_undef_throws
* ArrayOps: c25_merge_undef, c26_repeat_violated
* Endian: c27_overflow_violated
* Packer: c28_exact
* Call: c37_use_cycle_violated
* VM: c47_shifts
* Fields: c53_fields_after_redeclaration_violated
* Conc: conc_shared_read_violated, conc_late_set_violated, conc_late_leak_violated
* Types: cast_array_violated, cast_numeric_object_violated, cast_undef_bytes_violated, cast_interface_arrays_violated
* Literal: literal_end_violated, literal_float_sum_violated, literal_hex_float_sum_violated, literal_hex_underline_violated, literal_hex_violated, literal_empty_violated, literal_minus_violated
* StrLit: string_backslash_violated, string_brace_violated, string_arrow_violated, string_raw_violated, char_safe_partial, char_end_violated
* Expr: de_morgan
* Safety: make_read_only_undef_violated, make_read_only_frozen
* Access: allow_anon_violated, anon_private_violated, redeclared_field_violated, private_own_violated, child_allow_violated
* Parse: empty_block_violated, comparisons_do_not_chain
* Load: corrected_file_violated, class_file_kept_violated, anon_class_after_error_violated, freed_name_violated, tenth_anon_class_violated, unnamed_class_violated, anon_method_in_anon_class_violated, anon_method_position_violated, missing_class_hidden_violated
* Dump: dump_mulnum_indent_violated
* Decl: enum_after_syntax_error_violated, enum_max_violated
* Exch: c75_error_frees_violated, c75_index_violated, c75_set_type_violated, c75_set_scalar_violated, c75_get_kind_violated, c75_get_mulnum_violated, c75_to_elems_kind_violated, c75_to_bin_large_violated, c75_address_violated, c76_name_kept, c76_multi_dim_violated, c76_ref_assert_violated, c76_unknown_class_violated, c76_colon_violated, c76_name_changed_violated, c76_exception_text_violated
* FnCallback: undefined_arguments
* Init: init_after_error_violated, init_api_violated
* MethodCall: undef_return_violated
* Immutable: double_to_array_violated, undef_string_violated
* Destroy: revived_violated
* CloneEq: same_value_equivalence, eq_not_symmetric_violated, clear_one
* Build: same_second_violated, used_class_violated, removed_source_violated, old_time_violated
* ArrayAny: equals_mixed, equals_zero_violated, equals_big_violated, copy_any_overflow_violated

**no axioms** (15 theorems):
* StrBuf: c05_set_length_stale_violated, c05_set_undef_violated
* FnStr: c17_substr_overflow_violated, c50_abs_violated
* (top): c23_memmove_overflow_violated
* ArrayOps: c25_copy_overflow_violated
* VM: c47_left_shift_negative_violated, c48_mulnum_size_overflow_violated
* Vars: vars_frame_violated
* StrLit: single_backslash_violated
* Reflect: is_precompile, set_fallback, fallback_flag_unreadable, fallback_flag_violated
* MSort: default_answers
