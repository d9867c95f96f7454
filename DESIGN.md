# Formal model of itlib: design

Source modelled: `/repo/include/itlib/*.hpp` (read as text, never built or run).
Prover: Lean 4.33.0, with single modules of Mathlib. Everything is under `lean/Verif/`.

Contents: 1 layout, 2 conventions, 3 shapes of theorems, 4 trusted base, 5 properties, 6 what is modelled per header and what
is not, 7 where the code does not do what one expects, 8 tests of the theorems against wrong programs.

## 1. Layout

Each component `X` has a directory `Verif/X/`:

* `Model.lean` is the model: one Lean definition per C++ function. Every definition cites the header and lines it models; the
  comment at the top lists the simplifications of the component.
* `Spec.lean` is a small specification that does not refer to the model (lists, finite maps, sets, files, quantifiers). It also
  has the preconditions of calls, and the guards (`Safe`) that exclude calls for which the code is wrong.
* `Exec.lean` runs histories of calls on the model.
* `Lemmas.lean`, `StepLemmas.lean`, … are proof engineering.
* `Props.lean` has the property theorems `Cxx_…`, each beside an `example` showing that its hypotheses are met by a concrete
  non-trivial case. `Exceptions.lean` and some others are further files with property theorems.

Shared: `Core/` (outcomes, memory slots, counting of live objects), `View/` (what span, stride_span, poly_span and memory_view have
in common: memory at machine addresses, an interface of view classes, a specification of slices), `Conc/` (programs as trees of atomic
actions, arbitrary interleavings, linearizability).

`Conformance/` runs calls of the library's own unit tests (`/repo/test`) on the models, by evaluation. These are tests of the trusted part (is
the model what the code does?), not proofs, and no property refers to them. The tests were transcribed by reading; each file says what of the
test it leaves out. The real code was not run: that the tests pass with it is assumed. One call of the tests is undefined in a model: the empty
erase of `small_vector` (C05), which the tests make with `int` only.

`tools/manifest.py` makes `MANIFEST.json` from the theorems named `Cxx_…` and `tools/claims.json`. `tools/seed.py` runs the wrong
programs in `seeded/*.json`. `tools/axioms.py` makes `AXIOMS.md`, the axioms of every theorem in the manifest.

## 2. Conventions of the models

* **Outcomes.** Code that may throw or have undefined behaviour has results `ok value state`, `throw exception state` or `ub`
  (`Core/Outcome.lean`; some components use `Option`, `none` being undefined behaviour). The state at a throw is kept, so a
  history may go on after it. Undefined behaviour is a result of its own; that it does not occur is a theorem.
* **Objects** are named by numbers and live in a store. A function that takes two objects can be given the same one twice.
* **Element types** are arbitrary. A move leaves the source alive with the value `mv a` for an arbitrary function `mv`.
* **Memory.** Slots of typed storage are `raw` or `live a`. Constructing over a live object, destroying or reading a raw one, and
  leaving the block are undefined. `pod_vector`, `bit_cast` and the views have bytes and machine addresses.
* **Arguments that are references** may refer to an element of the container itself (`Arg.self i`, `Ref.elem i`).
* **Loops** are recursions that do the same memory operations in the same order. Where termination is part of the claim there is
  a bound on the number of rounds, reaching it is undefined behaviour, and the theorem gives a bound that suffices.
* **Sizes** are `Nat`, except where wrapping matters: `static_vector` (counts), `pod_vector` (C67), spans, views, streams, allocators, time stamps.
* **Standard library.** Algorithms are modelled by the usual loops or by what the standard says of them. What the standard leaves
  open is a parameter over which the theorems quantify: `std::sort` (any ordered permutation), growth of containers, addresses from
  allocators, `realloc` that moves or not, small-object storage of `std::function`, growth of hash tables, results of `strftime`.
* **Concurrency.** Calls are programs of atomic actions; all schedules of any number of threads are covered. Interleaving is
  sequentially consistent, except for the counter, whose memory is that of relaxed atomics (modification orders). Touching what a
  lock protects without the lock is undefined. The absence of races is also proved for the happens-before relation of C++ that
  the memory orders in the code give (`atomic_shared_ptr_storage`, C59) or that the mutexes used give (C62); that race-free
  programs with locks have only interleaved executions is taken from the C++ memory model.

## 3. Shapes of theorems

* **History refinement** (most components): for every list of calls, on any number of objects, that meets the preconditions (and the
  guard), the model runs without undefined behaviour, gives the replies of the specification, and ends in a state that represents
  the specification's.
* **Invariants of reachable states**: lifetimes, ownership of blocks, balance of allocations, counts.
* **Linearizability**, exclusion, absence of races and progress for concurrent components.
* **Exact effect** of single functions, for all arguments.
* **Defects** (`Cxx_…_defect`, `Cxx_defect_…`): where the code does not have the property, a theorem says so, for all states
  of a described kind and not only for one example. The theorem with the property then has the suffix `_partial`, and its guard
  excludes just these calls.

## 4. Trusted base

* Lean's kernel and the axioms `propext`, `Classical.choice`, `Quot.sound`. No other axiom, no `sorry`, no `native_decide`, no
  `bv_decide`. `AXIOMS.md` lists the axioms of every theorem in the manifest.
* The transcription from C++ to Lean, by hand, with line citations.
* The semantics given to the language and to the standard library in section 2 and in the headers of the `Model.lean` files.
* The statements in `Spec.lean` and `Props.lean`.

## 5. Properties

The statements are in `properties.jsonl`; `MANIFEST.json` has the theorems of each and a note on what is missing.

| id | modelled | how proved | not proved, or false |
|----|----------|------------|----------------------|
| C01–C04 | `StaticVector`: slots, size, throwing constructors; all mutators; several vectors | refinement of bounded lists; slot invariant; systems of vectors | false: erasing an empty range, inserting or assigning own elements, wrapping counts, assigning too many, self-move |
| C05–C09 | `SmallVector`: static slots, heap of blocks, failing allocations | refinement of lists with a home; heap ownership | false: inserting or erasing nothing, own elements as arguments, `revert_to_static` of a full vector, `reserve` undone by `push_back` |
| C10–C14 | `PodVector`: bytes, addresses, arbitrary allocator | refinement for all allocator decisions; byte invariant | false: own elements as arguments, `resize(n, v)`, misaligned recast, self-recast. Failing allocation: C61 |
| C15–C18 | `Flat`: both classes over any strict weak order | refinement of bags of entries; partial-function statements; comparison counts | false for arguments that compare unlike the key they convert to |
| C19–C22 | `Bitset`: words of any width | refinement of lists of booleans | false: `all` for narrow words, self-append, `copy` with a straddling tail |
| C23 | `Expected`: all six classes, unions with lifetimes | refinement per class over any number of objects | false: move assignment of `<void,E>`, throwing copy assignment and self-emplace of `<T,void>` |
| C24–C25 | `Any`: typed blocks, allocation log, failures | refinement; matching of allocations and releases | false: lvalues, self-assignment, own value, huge types, move assignment between allocators |
| C26–C27 | `Gen`: arbitrary bodies, frames | refinement of streams; frames destroyed once | false: `begin` when finished, self-move |
| C28–C30 | `MemOut`, `MemIn`: put and get areas, containers with arbitrary growth | refinement of files | false: chunks beyond `int`, several seeks, reuse with some containers, wrapping reads |
| C31 | `RStream`: state bits and positions, nested redirects | refinement of a stack of positions | false: after a failed read, at end of file |
| C32–C34 | `Span`, `StrideSpan`, `MemView`: machine addresses | refinement of slices of one array, with writes and frame | false: wrapping offsets, `last` of too many, negative iterator differences, stride 0 |
| C35 | `StrUtil`: memory and views | exact effect, maximality, termination | |
| C36 | `QAlg`: moved-from cells, throwing predicates, references to own elements | exact effect | false: `erase_all` of an own element |
| C37 | `TimeT`: 64-bit arithmetic, durations, `strftime` loop | refinement; rounding; termination | false: `strftime` with empty result. Floating point durations are not modelled |
| C38 | `Counter`: relaxed atomics | linearizability, distinct tickets, no lost update | signed overflow shown to be undefined |
| C39–C40 | `ASptr`: two-word pointers, spin lock, counts | linearizability, no race, counts, progress | C40 false for a failing compare_exchange |
| C41 | `RecMutex` | linearizability, exclusion, no deadlock | |
| C42 | `DataMutex` | linearizability, exclusion, balance | false for mutexes whose `lock` throws |
| C43 | `Sentry` | refinement, exactly once | |
| C44 | `SharedFrom`: control blocks | refinement, lifetime | |
| C45 | `Pmr` | balance; overflow shown | |
| C46 | `Utility`: bytes, padding, addresses | exact effect | null pointer in `owner_from_member` is undefined for the language |
| C47 | vectors with throwing constructors and allocations | strong and basic guarantees | false for several functions of both vectors |
| C48 | equality operators | outright, for any `operator==` of elements | `pod_vector` compares bytes |
| C49 | `SmallVector` | outright | false for `resize` |
| C50 | `UFunction`: `std::function` with any storage policy | refinement, ownership, no copies | null pointers to other functions |
| C51–C52 | `UMap`: hash table; overloads as types | refinement of maps; exact set of calls that compile | C52 false as stated |
| C53 | `ThrowEx`: exceptions in flight | exact effect | false while unwinding and for throwing operands |
| C54 | `TypeTraits`: scalars and their bytes | outright | false for bool enumerations, bases at other addresses, float formats, pointers to members |
| C55 | `BitBuf`: the functions of `Bitset` that allocate, with sizes modulo 2^64 and a buffer that may fail or add garbage | refinement with failures | false: size set before the buffer throws, words of `pod_vector`, sizes near 2^64 |
| C56 | `BitIter`: iterators as bitset and 64-bit index | refinement of positions; loops | |
| C57 | `FlatOver`: the functions of `Flat` as programs over a container, run on `StaticVector` and `SmallVector` | simulation of `Flat` for every container that refines lists; both vectors do | false: mapped values of the map as keys |
| C58 | `SmallVector` with throw points at every call of a history | refinement; every other exception proved fatal | false for most calls that construct elements |
| C59 | `ASptr/Hb`: recorded executions and happens-before from the memory orders | no race, publication, construction before all uses, destruction after them; weaker orders proved wrong | |
| C60 | `StaticVector` with throw points at every call of a history | refinement; exactly the leaked elements; exceptions of insertions proved fatal | false for insertions and constructors |
| C61 | `PodVector` with an allocator that fails at arbitrary requests | refinement: no effect or the specified one; lost buffers and null buffers proved | false for assignments beyond the capacity, and for allocators that return null |
| C62 | `RecMutex/Hb`, `DataMutex/Hb` (on `Conc/Hb`): recorded executions and happens-before from the standard mutexes | all that is done while holding is ordered; accesses to members and data do not race | |
| C63 | `Expected/Unexpected`: variables, `unexpected_t` with values and references | refinement over the objects of C23 | false: variables given without `std::move` |
| C64 | `MemOut/Copy*`: several buffers in one memory, implicit copy and move | simulation of each object alone (`Model`), then the files of C29, one per object | false: copies share the put area |
| C65 | `RStream/Copy*`: redirects with identities, implicit copy constructor | refinement of a map from redirects to positions | false: the end of a copy moves the original |
| C66 | `FlatOver/Throw*`: the functions of C57, each call of user code able to throw | refinement: no effect or the whole one, in every state reached by programs | false: copy assignment that fails between maps with different orders |
| C67 | `PodVector/Machine*`: the functions of `PodVector` that compute sizes, modulo 2^64 | equality with C61's program while vectors are small | false: `reserve` and constructors of 2^64 bytes, `reserve(2^63)`, `insert` of 2^64 elements |
| C68 | `SmallVector/Cost`, `PodVector/Cost`: moved elements and changes of the buffer, counted along the histories of C05 and C10 | potential function | |
| C69 | `Conc/Live`: infinite executions, weak and strong fairness; `ASptr/Live`, `RecMutex/Live`, `DataMutex/Live` | code brackets one critical section; structural induction on the rest of the call | false under weak fairness for every single call: the spin lock can starve a thread |
| C70 | `MemOut/Failing`: a flag per call, the container gets no memory during it | refinement of files where a call may be refused; capacity never shrinks | as C28, C29 |
| C71 | `SmallVector/Machine`: the functions of C58 with numbers that wrap around at 2^64, an endless loop being undefined | equality with the model of C58 for modest requests; what huge ones do, case by case | as C58; requests of less than 2^64 elements, on the heap of at most a third of that |
| C72 | `UFunction/Reentrant`: callables as programs that use `ufunction`s and their captures | simulation with identities of function objects, by steps | captures are not touched after the `ufunction` lost the callable |
| C73 | `StaticVector` with every element move made one by one, throw points at every call of a history (MoveModel.lean) | a throw point beyond all moves gives the calls of C60; otherwise exact effect, `iff` for fatal exceptions | false for `erase`, insertions, `swap`, move assignment |
| C74 | `Sentry/ReModel`: functions are programs with sentries, run by the destructor | simulation, induction on nesting depth and program; balance of duties | no use of a sentry while its own function runs |
| C75 | `SmallVector` with every element move made one by one, throw points for moves, constructions and allocations at every call of a history (MoveModel.lean) | a throw point beyond all moves gives the calls of C58; otherwise exact effect, with the blocks leaked | false for functions that keep the buffer, and for the move constructor and assignment |
| C76 | `Expected/Throw*`: calls in which contents throw, `noexcept` as the end of the program | refinement, invariant | calls outside the guard of C23 |
| C77 | `RStream/Scope*`: exception masks of streams, scopes left by exceptions, `operator>>` | refinement of brackets in a language with exceptions, induction on programs | false: scope left with failbit set |
| C78 | `MakePtr`: blocks, objects, counts; failures per call | refinement of pointers that are values; the blocks are those that are owned | |
| C79 | `MemOut/Cost`: characters written, filled and moved, counted along the histories of C29 | potential function | the container grows geometrically; false: short writes after `clear` |
| C80 | `FlatAny`: any contents, oracles for comparisons and for failures of the container; searches as in libstdc++ | loop invariants under arbitrary answers | false: keys are unique after an insertion that failed inside of the container |
| C81 | `UMap/Throw`: every call of user code may throw; hash codes are stored with nodes as in libstdc++ | simulation of the programs of C51 up to the exception | hash and equality lawful; references are used only while their entries exist |
| C82 | `Bitset/Cost`: capacities of the buffers and words made and moved, on top of the model of C19 | potential `3·words − 2·capacity` per bitset, summed over all | buffer grows by half at least (`Growth.Geometric`), proved of the usual `std::vector` and of `pod_vector`; calls within C19's `Safe` |
| C83 | `StaticVector/Stable`, `SmallVector/Stable`, `PodVector/Stable`: `C83_untouched`, `C83_small_vector`, `C83_pod_vector` and what the owner of a pointer sees, `…_value`; `…/StableRun`: `C83_history_partial`, `C83_small_vector_history_partial`, `C83_pod_vector_history_partial` | frame property: replacing what is in slot `i` commutes with every call that keeps `i` (`Spec.Keeps`; for `small_vector` no change of buffer by `Spec.moves`, for `pod_vector` enough capacity) | histories: calls outside of C01's, C05's and C10's `Safe` |

## 6. Modelled and not modelled, per header

Every header has a model but `tep_vector.hpp`, which has no functions. In all headers, `constexpr`, `noexcept` as a type property, type
aliases, conversions between `iterator` and `const_iterator`, and code for compilers that are not hosted are not modelled.

| header | not modelled |
|--------|--------------|
| any.hpp | alignment as an address property; `data`, `tdata` as pointers (their contents are) |
| atomic.hpp | construction; `bool`; copy assignment stores with the default, sequentially consistent order, in the model with the relaxed one (which allows more) |
| atomic_shared_ptr_storage.hpp | construction and destruction; the branch that uses `std::atomic<std::shared_ptr>`; weak references |
| data_mutex.hpp | lock objects handed to other threads |
| dynamic_bitset.hpp | allocators (only what the buffer does with them) |
| expected.hpp | throwing moves and copies of errors inside `unexpected_t` |
| flat_map.hpp, flat_set.hpp | throwing element copies inside the container beyond what C80 says of any leftovers; throwing copies of comparison objects; sorting by comparisons that are no order |
| generator.hpp | bodies that never suspend; allocation of the frame |
| make_ptr.hpp, shared_from.hpp | constness of objects; throwing constructors of objects with `enable_shared_from` |
| mem_streambuf.hpp | locales |
| memory_view.hpp, span.hpp, stride_span.hpp, poly_span.hpp | debug assertions; undefined pointer arithmetic that stays harmless; reverse iterators (the standard's) |
| mutex.hpp | `std::mutex` that throws |
| pmr_allocator.hpp | nothing of the code before C++20; after, the class is the standard's |
| pod_vector.hpp | allocators that are not interchangeable |
| qalgorithm.hpp | iterators that are not positions of a sequence |
| rstream.hpp | badbit |
| sentry.hpp | captures used after their function object was moved |
| small_vector.hpp | ranges whose iterators throw |
| static_vector.hpp | throwing moves in a vector swapped with itself; user-provided `swap` of elements |
| strutil.hpp | nothing |
| tep_vector.hpp | (no functions) |
| throw_ex.hpp | throwing constructors of the exception |
| time_t.hpp | floating point durations; calendar conversions and `now` (calls of the C library) |
| transparent_umap.hpp | iteration order; hash functions that throw while the table grows (libstdc++ stores the hash codes) |
| type_traits.hpp | `type_identity`, `is_instantiation_of` (no run-time meaning) |
| ufunction.hpp | destructors of function objects that use `ufunction`s |
| utility.hpp | `force_move`, `make_nullptr` (casts) |

## 7. Where the code does not do what one expects

All theorems with `defect` in their names. Those that corrupt memory or are undefined behaviour:

* static_vector, small_vector: `erase(it, it)` before the end; inserting an own element; assigning an own element; `insert(pos, n, v)` with
  `size + n` beyond `2^64`; exceptions during insertion, and in constructors (C01, C03, C05, C47, C58, C60, C71).
* static_vector: exceptions of element moves in `erase`, `insert` and `swap` leave a vector that cannot be destroyed; move assignment is
  `noexcept` by the elements' move assignment but move-constructs them: `std::terminate` (C73).
* small_vector: exceptions of element moves leak the new block of a growing vector; in `insert` and `erase` that keep the buffer they
  leave a vector that cannot be destroyed; the move constructor and move assignment are `noexcept` whatever the elements are: `std::terminate`
  (C75).
* small_vector on the heap: a request for 2^63 elements or more never returns (C71).
* sentry before C++17: a function that moves the sentry that runs it runs again (C74).
* flat_map over static_vector: `m[k]` with `k` in the map itself (C57).
* pod_vector: `resize(n, v)` writes `n` values from the old end; own elements as arguments; `recast_take_from` (C10, C11, C13, C14).
  `assign`, `operator=` and `recast_copy_from` free the old buffer before asking for the new one, so an allocator that throws leaves
  a vector that frees it again; a null pointer from the allocator (the default one returns it) is taken for a buffer (C61).
  `reserve(n)`, `assign` and constructors with `n * sizeof(T)` beyond `2^64` get a buffer that is too small, `insert` of as many elements gets none,
  and `reserve(2^63)` on a vector with a capacity never returns (C67).
* dynamic_bitset: self-append at multiples of the word (C21); a bitset whose `resize`, `push_back` or `append` threw; sizes near 2^64 (C55).
* expected: move assignment of `expected<void, E>`; self-emplace (C23); `unexpected(x)` keeps a reference to `x` (C63); moving one whose content throws ends the program (C76).
* any: emplace of the own value; stored references; wrong allocator (C24, C25).
* generator: `begin` on a finished one, self-move (C26, C27).
* mem_ostreambuf: chunks longer than `int`, seeks to the end (C28, C29); copies and moved-from objects used before `clear` or an absolute seek (C64).
* redirect_rstream on a stream that throws on failbit: a failed read ends the program (C77).
* data_mutex: unlock after a failed lock (C42).
* ufunction: a callable that resets the `ufunction` that runs it, and then reads a capture (C72).

Those that give wrong results: `unexpected(x)` moves from `x` (C63), flat_map and flat_set given arguments that convert to a key (C15) and after a copy assignment or an insertion that threw (C66, C80),
dynamic_bitset `all` and `copy` (C20, C22), small_vector `revert_to_static` (C08), stride_span differences
(C33), spans with offsets that wrap (C32), redirect_rstream after a failed read (C31) and copied (C65), erase_all (C36), strftime (C37),
atomic_shared_ptr_storage (C40), small_vector::resize (C49), ufunction (C50), transparent_umap (C52), throw_ex (C53),
is_noop_convertible (C54). mem_ostreambuf: the first write after `clear` takes time proportional to the old capacity (C79).

## 8. Wrong programs

`seeded/LOG.jsonl` has one line per edit of a model definition that makes it a wrong program: the edit, the claim it breaks, the theorems
that no longer prove, and the theorems that were tightened because they still proved. `seeded/*.json` keeps the edits so that they can be
run again (`python3 tools/seed.py seeded/X.json`). `tools/mutate.py X` makes mechanical edits of the definitions of a component and prints those that the
theorems do not notice.
