# Formal model of v8serialize

Subject: the Python package in `/repo/src/v8serialize` (encoder, decoder, object
log, JavaScript container types). The code was read as text; it was not run.

The model is a Lake project in `lean/`. Everything is ordinary Lean 4: total
computable functions over `List`, `Nat`, `Int`, `Option`, `Except`, and theorems
about them. There are no axioms of our own, no `sorry`, no `native_decide`.

## 1. How the code is modelled

* Bytes are `UInt8`; a stream is a `List UInt8`. The reader keeps the whole data
  plus an integer position, as `ReadableTagStream` does, so alignment and
  reading past the end are visible.
* Exceptions are values. Decode errors distinguish `DecodeV8SerializeError` from
  other Python exceptions (`IndexError`, `AssertionError`, `ValueError`, ...),
  because which exception is raised is part of the contract (C17).
* Python objects live in a finite heap: a value is a primitive or an object id,
  and a heap cell is one of the supported kinds. Cycles and sharing are
  therefore ordinary data. Python `id()` is the object id.
* Recursion through `ctx.encode_object` / `ctx.decode_object` is modelled with
  fuel; the fuel is shown to be sufficient (C14, C15), so no result depends on it.
* Floats are 64-bit patterns. Where the numeric value matters it is the exact
  integer `value * 2^1074` (every finite double is a multiple of `2^-1074`).
* Strings are lists of code points, UTF-8 / UTF-16 codecs are modelled in full.

## 2. Plan per property

| Id | What is modelled | How it is proved |
|----|------------------|------------------|
| C01, C02 | `write_varint`, `read_varint` | induction on the number / the bytes; prefix-freeness from the round trip with arbitrary suffix |
| C03 | `_encode_zigzag`, `_decode_zigzag` | case analysis, `omega` |
| C04 | `write_int32/uint32`, `read_int32/uint32` | from C01/C03 plus range checks |
| C05 | `write_bigint`, `read_bigint` | little-endian digit lemmas, bit length |
| C06 | `serialize_int` and the readers it selects | C03-C05 plus exactness of int to double |
| C07 | `write_double`, `read_double` over bit patterns | little-endian digit lemmas |
| C08 | UTF-8, Latin-1, UTF-16-LE codecs | induction on the text / the bytes |
| C09 | `write_string_twobyte`, `read_tag` with padding | parity of offsets |
| C10 | `write_header`, `read_header`, `loads` | computation of the header plus inversion of the reader; negation witness for huge version numbers |
| C11 | encoder and decoder on heaps | simulation: encoder run vs decoder run, with a relation between object ids built on the way; the references written are right if no object of a kind numbered differently occurs (an invariant) or if no object occurs twice (`Proofs/EncodeOnce.lean`: the count of remaining mentions of each object stays at most one) |
| C12 | object logs of both sides | part of the simulation invariant; negation witnesses for regexp, cause-less error, shared buffers |
| C13 | `serialize_object_references` | an object that is in the log is written as one reference; output size bound by induction |
| C14 | fuelled encoder | measure: objects not yet in the log |
| C15 | fuelled decoder | measure: bytes left; position monotone |
| C16 | decoder on a prefix | two-run argument: a run that stays below the cut behaves the same |
| C17 | error values of the decoder | classification of all error results; negation witnesses where another exception escapes |
| C18 | collection readers | inversion of the loop; negation witness for huge counts |
| C19 | tag constraints in writer and reader | invariant on the writer; negation witness for constants |
| C20 | `deduplicate` | table invariant; negation witnesses |
| C21 | `read_js_error` | symbolic execution of both layouts |
| C22 | `record_acyclic_reference` in the encoder | invariant: an open error's entry is an unset forward reference |
| C23 | feature checks in writers | invariant on emitted tags; negation witness for the `v` flag |
| C24 | `supported_by`, version comparison | order lemmas |
| C25, C26 | array writers and readers | both decode to the same abstract list with holes |
| C27, C28 | Dense/Sparse array properties | refinement to `List (Option α)` over operation histories; negation witnesses for sparse |
| C29, C31 | JSObject | refinement to an abstract mapping |
| C30 | `normalise_property_key` | decimal string lemmas |
| C32, C33 | JSMap, JSSet, `same_value_zero` | refinement to association lists |
| C34 | `recursive_eq` and the `__eq__` methods it guards | the set of running comparisons is threaded through and restored; structural equality is a bisimulation (`Spec/StructEq.lean`); on graphs without cycles the running objects are strict ancestors of one side; negation witness on a cyclic graph |
| C35, C36 | JSArrayBuffer, views | invariants over histories |
| C37 | DataView | list splice lemmas, little/big-endian digits |
| C38 | Node host objects | codec round trip |
| C39 | `read_tag`, tag dispatch | case analysis over all bytes |
| C40 | step chain (`Props/Config`), `encode_object` and `decode_object` with any steps (`Props/Steps`) | induction on the list of steps |
| C41 | `loads` argument checks | decision table |
| C42 | `SerializedObjectLog` | invariant over histories |
| C43 | JSRegExp, flags | constructor case analysis |
| C44 | views in encoder/decoder | part of C11, plus region equality |
| C45 | decoder with suffix | same two-run argument as C16 |
| C46 | corollary of C11 | two round trips to the same decoded graph |
| C47 | error tags | case analysis |
| C48 | decoder allocation; for rejected data a second decoder whose exceptions carry the state and the unfinished containers (`Model/DecodeFail`), shown to agree with the first | counting invariant along successful and failing runs |
| C49 | encoder on two heaps | two-run simulation: paired caches and logs, step by step (`Proofs/EncodeSim*.lean`) |
| C50 | encoder, decoder, encoder | C11 gives the pairing of objects, `Proofs/ReEncode.lean` shows that it preserves the form, C49 does the rest |
| C51 | decoder results | invariant over all decoder states (`Proofs/DecodeMade.lean`) |
| C52 | decoder results given to the encoder | C51 and C11 |
| C53 | which graphs the encoder accepts | exception-freeness by induction on depth, and an invariant of the log for the converse (`Proofs/EncodeAccept.lean`) |
| C54 | `JSRegExpFlag`, conversion from and to `re.Pattern` (`Model/RegExpPy`) | bit by bit for every flag value; patterns through C11 |
| C55 | constructor of `JSPrimitiveObject` (`Model/PrimObject`) | case analysis; payloads as in C05-C08 |
| C56 | operators JSSet inherits from `MutableSet` (`Model/SetAlgebra`) | lists with each class once (`Proofs/SetAlgebra.lean`), histories by induction |
| C57 | methods JSMap inherits from `MutableMapping` (`Model/SetAlgebra`) | step simulation against a list of entries |
| C58 | `_v8traceback.py`, `JSErrorData.from_traceback_exception` (`Model/Traceback`) | induction over the tree of exceptions; `dumps`/`loads` by C53 and C11 |
| C59 | the methods JSObject and JSArray inherit from `MutableMapping`, their constructors (`Model/ObjectMixins`) | simulation by a list of properties (`Spec/ObjEntries`), induction over the history; AssertionError only for an element of a sparse array whose keys are not sorted; negation witnesses |
| C60 | `timestamp()`, `fromtimestamp()` and the arithmetic around them in correctly rounded binary64 (`Model/Float`, `Model/DateTime`) | error bounds of rounding in exact rationals, added up over the four operations; negation witnesses |
| C61 | `struct`'s conversions to and from binary16 and binary32 and of integers to doubles (`Model/Float`), DataView accessors | patterns and their exact rational values; rounding picks the nearest multiple of the spacing, smaller spacings are farther; negation witness for numbers that are too big |
| C62 | `JSMap.__eq__` and `JSSet.__eq__` against dict, set and their own class; dict construction, lookup and equality over an open `hash`, `is` and `==` (`Model/PlainEq`) | a dict made of pairs with hashable keys is as long as the list only if the keys differ; entries found one by one form a matching; negation witnesses for unhashable keys and NaN |
| C63 | elements of typed arrays through `memoryview`, `JSArrayBufferView.__eq__` and `__hash__`, `BackportJSFloat16Array.get_buffer` (`Model/TypedArray`) | writing one element sets one entry in the list of numbers; every half precision number is one in single precision, so an invariant relates the copied array to the buffer through all assignments; negation witnesses for hash, overflow, NaN and double rounding |
| C64 | `TagReader.__init__` and the methods that use its options (`Model/DecodeOptions`) | a relation between two runs of the decoder, kept by every method: same position, log and numbers, heaps related node by node through the history of assignments; JSObject stores commute with replacing values, so both stores fail alike; the default options give equality; negation witnesses for sets, merged keys, holes and messages |
| C65 | `JSRepr.__init__`, `js_repr_settings` as a machine of blocks entered and left (`Model/ReprSettings`) | open blocks form a chain of JSRepr objects (any arguments); for blocks with own objects the path from the active object to the first one: leaving the innermost block shortens it, leaving another one keeps it in the path for good; hence restored iff nested iff no warning; negation witnesses for overlapping blocks |
| C66 | `repr1` and the `repr_*` methods of the five classes as functions to expressions, and the evaluation of these (`Model/Repr`) | induction on the depth: every list of parts evaluates to a list of copies, of which the constructors (`ofPairs`, `arrayOfValues`, `JSMap.update`, `JSSet.ior`) make a copy of the object; the new part of the heap is acyclic, so that C34 gives `==`; for values not shown in full: general theorems for too many properties, reserved words and enum names of errors, and witnesses for the rest |
| C67 | `TagReaderRegistry` as a dict, registries as mutable objects under a sequence of events, the registration table of TagReader, decoding with a registry (`Model/TagReaders`) | invariant over the events: each registry's `match` is the reader in effect according to the history; refinement of decoders (`RunsTo`: what succeeds with the first succeeds with the second, with the same result) through all loops and methods |
| C68 | a heap of Python memory objects, memoryviews and JSArrayBuffers, and the calls on them as events (`Model/Memory`) | an invariant of the heap kept by every call (`Mem.Ok`); the effect of each call classified once (`Mem.Effect`); ownership (`Private`: who can reach the bytearray of a buffer) kept by calls that do not write through it |
| C69 | the loops of `Sequence` and `MutableSequence` over the methods of either array implementation (`Model/ArrayMixins`); the comparison is a parameter | refinement to lists over histories, on top of C27 and C28; `reverse` by what is at each position after each swap, with a state in which no swap raises; a negation witness |
| C70 | `functools.singledispatch` (`_c3_merge`, `_c3_mro`, `_compose_mro`, `_find_impl` of CPython 3.11) over any set of classes (`Model/Dispatch`); the cache of results is left out | invariants of the merge (its sequences keep their order) and induction over the calls of `_c3_mro`; two negation witnesses; the model is tested against CPython's choices for 36 classes |
| C71 | `_versions.py`, `packaging`'s `VERSION_PATTERN`, `Version` and its order, `supported_by` of a text or of any version (`Model/Versions`) | each part of the pattern is a function to its matches in order of preference; the first match that ends where it should is followed through all parts; order lemmas for each part of the sort key; the model is tested against CPython on 23491 texts and 20000 pairs; four negation witnesses |
| C72 | `recursive_eq` as a program whose steps are the operations on `_RUNNING_EQ_KEYS`, any number of threads and any schedule (`Model/EqThreads`) | the program refines the comparison of C34 on the keys of its thread; invariant over the steps of all threads: alone each thread would end with the results due |
| C73 | JSError and JSErrorData as objects: constructors, `message`, copies, `__eq__` with its reflected method, `<`, `str()` (`Model/ErrorObjects`) | case analysis over both classes, induction over operations, the order lemmas of C71; six negation witnesses |
| C74 | `functools.lru_cache` with its keys, eviction and uncached exceptions, and the functions cached (`Model/Caches`) | invariant over the cache: every entry is the result for its argument; converse theorem; witnesses of poisoned caches |
| C75 | `str(float)` of CPython over any choice of shortest digits (`Model/FloatText`), `normalise_property_key` (`Model/Keys`) | rounding is monotone, so the position of the first digit is decided by comparing with powers of ten; exact comparison with ECMA-262 (`Spec/NumberText`) |
| C76 | the decoder once more with the position in each exception (`Model/DecodePos`) | every reader and every decoding function is related to itself on other data that agrees up to a position, and to the model without positions; induction on fuel |
| C77 | `_mktime`, `timestamp()` and `fromtimestamp()` without time zone over any clock of a time zone (`Model/LocalTime`) | case distinction on where the clock is set, for the whole seconds; the error bounds of C60 for the rest |
| C78 | the whole reader (`Model/Decode`), against `Spec/Language` | each reading function is shown sound and complete for its rule (`RMSpec`); loops by induction on the derivation and on the fuel; recursion by induction on the nesting depth; enough fuel by the closure argument `RelClosed` with C15 |
| C79 | `decode_object` and `encode_object` with a number of frames left, any number of frames per kind of value (`Model/Nesting`) | induction on the room: less room gives the same or RecursionError; soundness and completeness for the grammar with bounded nesting as in C78 |
| C80 | the views of `collections.abc` over a JSMap, and the operators of `collections.abc.Set` over anything with members and `in` (`Model/Views`) | the look-ups of the views find their own entries by the invariant of the dict; `set(...)` by induction over the values put in; inclusion by counting |
| C81 | the readers of containers with the containers in the heap from the start, each entry stored there when it is read (`Model/InPlace`); the rest as in `Model/Decode` | a relational invariant over both decoders: outside the unfinished objects the heaps agree, and for a nested value everything that exists is frame |
| C82 | the views of `collections.abc` over a JSObject, with any Python value as the key (`Model/ObjViews`) | the keys of an object stay normalised through any history, so that the look-ups of the views find their own entries; comparisons by counting; the operators once for anything that holds normalised keys (`KeySet`), with the keys of another object and Python sets as instances |
| C83 | the classes of exceptions: base classes, parameters, what is stored where, properties, `==` of `@dataclass`, `__reduce__` (`Model/Errors`) | the binding of arguments once for any signature (`bind_iff`, `bind_ok`); the shape of what each class stores; invariants of `__dict__` under assignments |
| C84 | objects that refer to dicts and arrays, so that a copy can share them; what `copy`, `deepcopy` and `pickle` put into the slots (`Model/Copies`) | the reference to the dict never changes, so the copy and the original agree for ever; entry by entry for deep copies, with the stored surrogates unchanged |
| C85 | the characters that `repr_bytes`, `repr_bytearray`, `repr_memoryview`, `repr_JSArrayBuffer`, `_join` and `JSArrayBufferView.__repr__` print (`Model/BufferRepr`); a reader of Python expressions and an evaluator that calls the constructors (`Spec/BufferRepr`) | byte by byte, the reader gets each byte from its escape; calls by a lemma on any argument that is read back; exact conditions as iff, since some buffers and views are shown wrongly |
| C86 | the methods that `@dataclass(frozen=True, order=True)` writes, comparison of tuples, numbers and text, `FrozenAfterInitDataclass` (`Model/ValueObjects`) | each field is mapped into a linear order (numbers with infinities, lists of code points); a pair of fields into the lexicographic product; bytes by injectivity of `fval`; attributes by an invariant over the actions |
| C87 | `JSMap.__init__` with Python's binding of arguments, `JSMap.update`, `JSSet.__init__` (`Model/MapArgs`) | each loop stores the steps of its source (`Does`), induction over the source; C32's simulation for one assignment; witnesses for the keywords `init` and `self` |
| C88 | the iterator of `JSObject.__iter__` with the list that it holds on to, and which changes are made in that list (`Model/Iteration`) | invariants of cursor and object (`Live`, `Ahead`, `Orderly`), induction over the loop; witnesses for deleted keys and for a key that comes twice in sparse arrays |
| C89 | `repr()` as a procedure whose steps are the accesses to the set `__repr_running`; dispatch by type name, `repr_instance`, threads that take their steps in any order (`Model/ReprGuard`) | the part of the set that belongs to a thread changes only in its own steps (`run_alone`); induction over procedures and over the objects not yet shown; `C89_subclass` proves that subclasses are not shown |
| C90 | `V8SerializeError.__str__`, the `__repr__` of `@dataclass`, and what KeyError and BaseException do for the two other classes, on top of `Model/Errors` (`Model/ErrorTexts`) | the fields can always be read (`made_readable`); they are the parameters of the class in another order; cases over the classes |
| C91 | all methods of `WritableTagStream` once more, statement by statement and with the stream after an exception (`Model/WriteFail`); encode steps are programs that call methods and may catch their exceptions; agreement with `Model/Encode` is proved (`C91_agrees`) | each statement only appends; appending is closed under sequence, constraint and `record_acyclic_reference`; induction over the program and the depth |
| C92 | the table of a CPython dict with its empty places, the iterator of `values()`, loops as scripts of changes, and the loop of `write_jsmap` over `items()` (`Model/MapLoop`); when the table is made anew is left open | the keys before the place of the iterator are a sublist of those that came, and no more come than there were; induction over the script; agreement with the JSMap and JSSet of `Model/Value` (`C92_map`, `C92_set`) |
| C93 | data as a list of items with their bytes, signedness and spacing; what `Decoder.decodes` makes of it; the readers of tags, varints, header, 32-bit integers, doubles, strings, BigInts and array buffers over such data (`Model/Sources`) | each reader is related to the one over bytes, composed along its definition; for the header of signed bytes, the tag found is an item of the data |
| C94 | the characters of `repr()` of the five container classes, with `Repr._join` of Python 3.12 and its slice, the empty and single pieces, the gap before keyword arguments, and the failures (`Model/ReprText`) | one lemma runs two settings side by side and carries any relation of texts that fits `_join` through all functions and levels; three relations are used: same without layout, moved to the right, equal and on one line |
| C95 | the characters of `Model/ReprText` and the expressions of `Model/Repr`, two readings of the same functions | refinement: the text is the expression written out, by induction over the levels and cases of the class, the properties and the limits; together with C66 and C94 |
| C96 | `alternating_regions` with the keys of its groups, `groupby`, the first group, loop and last gap, `SparseArrayProperties.__iter__` over the regions, `EmptyRegion.__str__` and `AbstractArrayProperties.__str__` (`Model/Regions`) | the keys make the runs of adjacent indexes, which lie apart; by induction over the list with holes the regions divide it, and there is one way to do so; the text is split at its commas and the pieces at those that begin with `<`, so it tells arrays apart |


Each theorem is in `lean/Verif/Props`, named `Cxx_...`; `MANIFEST.json` lists them
per property. Behind most theorems there is an `example` that meets its
hypotheses with concrete, non-trivial data (graphs with cycles, sharing, sparse
arrays, views). Notions that the statements need beyond the model are defined in
`lean/Verif/Spec`, without use of the model's own encoders and decoders:

| File | Defines |
|------|---------|
| `Spec/PyList` | a list with holes and the list operations (C27, C28) |
| `Spec/PropMap` | an ordinary mapping from property keys (C29, C31) |
| `Spec/JSCollections` | Map / Set semantics by same-value-zero classes (C32, C33) |
| `Spec/Log` | a numbering of objects (C42) |
| `Spec/Graph` | well-typed graphs, what a decoded graph must look like, correspondence of two graphs (C11, C25, C26, C44, C46) |
| `Spec/Size` | size of a graph: nodes, edges, characters, bytes (C13) |
| `Spec/Reach` | reachability, being within the cause of an error (C12, C22) |
| `Spec/Once` | data in which no object occurs twice (C11, C25, C26, C44, C46, C52) |
| `Spec/Wire` | a grammar of messages, by features (C19, C23) |
| `Spec/Bodies`, `Spec/ErrorLayout` | byte layouts of collections and errors (C18, C21) |
| `Spec/SameForm` | two graphs of the same form (C49) |
| `Spec/Restorable` | graphs that come back in a form that is written alike (C50) |
| `Spec/Decoded` | what holds of the objects that loads makes (C51) |
| `Spec/Writable` | values that can be written (C53) |
| `Spec/RegExp` | letters of RegExp flags and the Python flags with the same meaning (C54) |
| `Spec/SetAlgebra` | collecting values into a set, inclusion, further operations of sets and maps (C56, C57) |
| `Spec/Traceback` | which exceptions are shown, in which order, and the lines for each; chains of causes (C58) |
| `Spec/ObjEntries` | an object as a list of properties in the order of enumeration (C59) |
| `Spec/Float` | the meaning of bit patterns in IEEE 754 as rationals, nearest pattern, byte order (C61) |
| `Spec/PlainEq` | one-to-one agreement of entries in order and in any order, rules for hashable values (C62) |
| `Spec/TypedArray` | table of element types, numbers in a region, equality of numbers, one element stored (C63) |
| `Spec/DecodeOptions` | constants, containers and errors with options, node by node; keys that stay apart (C64) |
| `Spec/ReprSettings` | nested and complete sequences of blocks, the settings of a block (C65) |
| `Spec/Repr` | copies of values, values that `repr` shows in full (C66) |
| `Spec/TagReaders` | reader in effect after a history of calls, readers and steps that raise, tags that `loads` reads (C67) |
| `Spec/Memory` | which handles lead to a bytearray, and sequences of calls that do not write through them (C68) |
| `Spec/PySeq` | the further methods of a list (C69) |
| `Spec/Classes` | what Python guarantees of bases, mros and `issubclass()` (C70) |
| `Spec/ClassesExample` | some of the classes of the library and of Python, for examples (C70) |
| `Spec/Versions` | release numbers and suffixes as text, the local part of a suffix (C71) |
| `Spec/NumberText` | ECMA-262 `Number::toString`, shortest digits, the number a decimal literal stands for |
| `Spec/Clock` | what is assumed of a local clock; the first and last time it shows a local time; local times it skips |
| `Spec/Language` | a grammar of messages with their meaning, as relations without positions, fuel or exceptions |
| `Spec/Nesting` | the grammar of `Spec/Language` with bounded nesting |
| `Spec/Views` | what a Python set keeps of the values put into it |
| `Spec/ObjViews` | property keys as Python values, sets of keys, equal properties |
| `Spec/Errors` | calls that fit a signature, the value passed for a parameter, exceptions after assignments |
| `Spec/Copies` | containers a program has made, the copy of a value, copied answers |
| `Spec/BufferRepr` | a reader of bytes literals, calls and `.cast`; evaluation; which buffers and views are the same |
| `Spec/ValueObjects` | the linear order of numbers with infinities, what an operator answers in a linear order, one identity one value |
| `Spec/MapArgs` | the steps in filling a dict from a source and keywords |
| `Spec/Iteration` | having a property, taking it away, the keys that come |
| `Spec/ReprGuard` | what a text should show, entries of a thread, being finished |
| `Spec/ErrorTexts` | parameters of a class, `a=1, b=2`, present values |
| `Spec/WriteFail` | a longer stream, no constraint left, methods without parts, refused arguments |
| `Spec/MapLoop` | changes that keep the keys, that keep the places, that take a key away |
| `Spec/Sources` | the bytes of the data, data of unsigned bytes, items of one width, agreement of a reader with the one over bytes |
| `Spec/ReprText` | a text without layout, a text moved to the right, one line for each piece |
| `Spec/ReprWritten` | how an expression is written in Python on one line |
| `Spec/Regions` | what it means to divide a list with holes into its longest runs |
| `Spec/StructEq` | structural equality of graphs, acyclic graphs (C34) |
| `Spec/Examples` | the graphs used in the examples |

## 3. Trusted base

* Lean 4.33.0: its kernel and the three standard axioms `propext`, `Quot.sound`
  and `Classical.choice`. No other axiom occurs, in particular no `sorryAx`, no
  `Lean.ofReduceBool`. `decide +kernel` is evaluation by the kernel itself.
* Axioms per theorem (from `collectAxioms` over every `V8.Props.Cxx_...`):
  * none: C24_no_features_raises, C28_append_hole, C35_fixed,
    C37_refused_value_clears_target, C41_type_errors;
  * `propext` only: C27_insert_before_front, C28_spurious_assertion,
    C29_spurious_assertion, C32_huge_int_key, C41_node_handler;
  * `propext`, `Quot.sound`: all of C01, C02, C07, C09, C40; C03_zigzag_code,
    C05_bigint_round_trip, C08_invalid_rejected, C10_header_rejected,
    C10_header_written, C20_dedup_partial, C24_encoder_features,
    C28_insert_at_end, C34_no_residue, C34_reflexive, C35_constructed,
    C37_set_get_float, C38_others_unchanged, C38_view_written,
    C39_padding_skipped, C39_unknown_byte_rejected, C42_acyclic_blocks,
    C42_get_back, C42_ids_in_order, C42_log_is_a_numbering,
    C42_negative_id_accepted;
  * all three: every other one (`Classical.choice` enters through `omega`, `simp`
    and Mathlib lemmas).
* That the definitions in `lean/Verif/Model` do what the cited lines do. They were
  written by reading, one function at a time; every definition names its lines
  and its simplifications. The project was not run.
* The standard library behaves as specified: CPython `int`, `list`, `dict`,
  slicing and subscript semantics, the `latin1` / `utf-8` / `utf-16-le` strict
  codecs, `struct` little-endian layouts, `functools.lru_cache(typed=True)`,
  `packaging.version` (modelled from version 24.1).  The models of `float`,
  `struct` and `datetime` arithmetic in `Model/Float` and `Model/DateTime` were
  compared with CPython 3.11 on about 95,000 random and boundary cases (no
  difference), the dict iterator of `Model/MapLoop` on 200,000 random loops (each
  agrees for some choice of when the table is made anew); `C61` relates them to IEEE 754.

## 4. What is modelled and what is not

| Source | Modelled | Not modelled |
|--------|----------|--------------|
| `encode.py` | `WritableTagStream` (all write methods), `TagWriter` with the choice of its methods by class, `serialize_object_references`, `DefaultEncodeContext` with step chain and de-duplication, `Encoder`, `dumps` | `from_exception` (a Python exception is given by the JSErrorData made of it) |
| `decode.py` | `ReadableTagStream` (all read methods), `TagReader` with its options for containers, constants, errors and tag readers, `TagReaderRegistry`, context with step chain, `Decoder.decodes`, `loads` with its option checks | container types other than the defaults, dict and set; own error builders |
| `_references.py` | `SerializedObjectLog`, forward references | weak references / `id` reuse (the log keeps objects alive) |
| `constants.py` | tags, tag constraints, view tags, error tags and names, RegExp flags, features, versions of any form, also as text (with `_versions.py`) | |
| `extensions.py` | Node.js host object reader, writer and encode step | |
| `jstypes/jsarrayproperties.py` | Dense and Sparse: all methods, also the inherited ones, elements view, regions | slices (NotImplementedError), `repr()` (`str()` is modelled) |
| `jstypes/jsobject.py`, `jsarray.py` | get / set / delete / iterate (also while the loop body changes the object) / len / update, dense-to-sparse switch, inherited mapping methods, constructors | |
| `jstypes/jsmap.py`, `jsset.py`, `_equality.py` | constructors, set / delete / get / update / iterate, `same_value_zero`; of the inherited methods all of JSSet, `in`, `pop`, `popitem`, `setdefault` and the views of JSMap | set algebra of `items()` |
| `jstypes/_normalise_property_key.py` | all | the choice among shortest digits of a float (`Model/FloatText` takes any; elsewhere the text is the parameter `floatStr`) |
| `jstypes/jsbuffers.py` | JSArrayBuffer and the memory it shares, views, their elements, equality and hash, DataView accessors with the conversions of `struct` | multi-dimensional memoryviews, slices of views, big-endian machines |
| `jstypes/jsregexp.py` | constructor, flags, conversion from and to `re.Pattern`, comparison, hash, assignment | the regular expression engine (`re.compile` is a parameter) |
| `jstypes/jsprimitiveobject.py`, `_v8.py` | constructors, comparison, hash, assignment | |
| `jstypes/jserror.py` | the data an error carries, defaults, both classes as objects, errors from Python exceptions | how `traceback` summarises an exception |
| `jstypes/_v8traceback.py` | all of it, on what `TracebackException` recorded | |
| `jstypes/_repr.py` | `js_repr_settings`, `JSRepr.__init__`; `repr()` of the five container classes as expressions; the characters of these with and without `indent`; `repr()` of bytes, buffers and views as characters; the guard against recursion, threads, subclasses and other classes | indents that are strings (the type says `int`), characters of the values inside containers |
| `jstypes/_recursive_eq.py` and the `__eq__` methods | all of `recursive_eq`, JSObject/JSArray/JSMap/JSSet/JSError comparison, several threads | objects changed during a comparison, NaN identity shortcuts of `list.__eq__` |

Further not modelled: how many frames a nested value takes (C79 is for any number),
memory limits, `OSError` from
`datetime.fromtimestamp`, warnings, messages of exceptions.
`timestamp()` and `fromtimestamp()` are parameters of the encoder and decoder models
(`PyEnv`), so that C11 and its relatives hold for any that invert each other on the
dates used. `Model/DateTime` has the ones of CPython for datetimes with a time zone
(`withDates`), over the correctly rounded arithmetic of `Model/Float`; C60 shows for
which dates they do invert each other. `Model/LocalTime` has
the ones for datetimes without a time zone (`withLocalDates`) for any local clock; C77
is about these.

## 5. Disagreements between the code and the properties

Found by reading, then proved of the model where a theorem is named.

1. RegExp objects are numbered by the reader (decode.py 404-413) but not by the
   writer (encode.py 386-392). Every later reference is off by one:
   `C11_fails_after_regexp`, `C12_numbering_differs`.
2. An Error without cause is likewise not numbered by the writer (encode.py
   394-423): `C11_fails_after_error`, `C11_error_duplicated`, `C13_not_linear`.
3. Shared and transferred buffers are numbered by the writer but not by the
   reader (decode.py 760-780): `C11_fails_after_shared_buffer`. Their ids of 2^32
   and above are written but cannot be read.
4. De-duplication merges equal values that are not interchangeable: `0.0` and
   `-0.0`, tuples `(1,)` and `(True,)`: `C20_zeros_merged`, `C20_tuples_merged`,
   `C46_zeros_collide`. The same holds for equal but distinct bytes-backed views.
5. `write_constant` replaces the key constraint in force (encode.py 240-242), so
   constants can stand in key position: `C19_writer_accepts_constants`.
6. The resizable buffer reader checks the length before it reads the maximum
   length (decode.py 739-748); the slice may then be short and the position
   beyond the end: `C15_position_passes_end`, `C17_index_error`.
7. `read_error_tag` subscripts the data at the end while it builds its message
   (decode.py 418-423): `C17_index_error`.
8. Other exceptions that malformed data lets escape from `loads`: ValueError,
   AssertionError, OverflowError, JSArrayBufferError and date errors:
   the `C17_...` theorems list when.
9. SparseArrayProperties raises AssertionError in `__setitem__` when its sorted
   keys are not cached and the number of items falls to one
   (jsarrayproperties.py 522-558): `C28_spurious_assertion`,
   `C29_spurious_assertion`, and by data: `C17_assertion_error`.
10. Sparse `append(JSHole)` does not grow the array (`C28_append_hole`); sparse
    `insert` at the end raises IndexError (`C28_insert_at_end`); dense `insert`
    before the front raises IndexError (`C27_insert_before_front`).
    `SparseArrayProperties(values=generator)` loses trailing holes (not proved).
11. The elements view accepts key == length and raises IndexError instead of
    KeyError: `C28_elements_view_off_by_one`.
12. `recursive_eq` can return True for different cyclic graphs
    (`C34_cyclic_wrong`): two running objects count as equal although they are not
    the pair being compared.
13. `Encoder.first_v8_version` without features raises ValueError:
    `C24_no_features_raises`.
14. The RegExpUnicodeSets feature is never checked: `C23_v_flag_written`.
15. Views on resizable buffers written without the ResizableArrayBuffers feature
    still carry the resizable and length-tracking flags:
    `C23_view_flags_written`.
16. `get_object(-1)` returns the last entry: `C42_negative_id_accepted`. After
    `record_acyclic_reference` a log slot holds a ForwardReference wrapper
    (`C42_acyclic_blocks`).
17. Re-inserting an equal key into a JSMap or JSSet replaces the stored key; ints
    from 2^1024 - 2^970 up cannot be keys: `C32_huge_int_key`.
18. `normalise_property_key` of non-integral floats uses Python's text
    (`inf`, `1e-07`), not JavaScript's. A sparse array's declared length above
    2^32 - 1 makes storing fail; items beyond the declared length extend it.
19. A dict with several NaN keys loses entries; keys `JSPrimitiveObject(1)` and `1`
    become the same Map key.
20. The JavaScript name `URIError` is not recognised, the code spells it
    `UriError`: `C47_uri_error_not_recognised`.
21. A view is written as buffer plus view. A prefix of such a message is the bare
    buffer (`C16_view_prefix_accepted`), and a buffer followed by a stray `V` is
    read as a view (`C45_view_changes_value`).
22. A refused DataView value zeroes its target bytes first:
    `C37_refused_value_clears_target` (CPython's `pack_into` clears the target).
23. A Node.js host object whose length is no multiple of the item size is
    accepted, its rest is hidden: `C38_partial_item_hidden`.
24. Views on shared or transferred buffers are written with offset and length 0.
25. An out-of-range length-tracking view is written with offset 0 and comes back
    as a view of the whole buffer.
26. Without CircularErrorCause a list that contains an error whose cause is that
    list is accepted: only references to the error itself are refused.
27. `JSArrayBuffer(copy_data=False)` of a multi-byte memoryview or of an
    `array.array` truncates: it shows as many bytes as there are items (`C68_items`).
28. `read_bigint` accepts 8 * (2^30 - 1) bits, `write_bigint` only one bit less
    (it always leaves room for a sign bit, encode.py 313-330), so the longest
    BigInts that can be read cannot be written: `C52_longest_bigint_refused`.
29. `JSRegExp.from_python_pattern(p, throw=False)` raises UnicodeDecodeError if `p`
    is a bytes pattern that is not UTF-8: `C54_bad_bytes_raise`.
30. `a & b` and `a &= b` give the same set in different order and with different
    representatives of equal numbers (`&` follows `b`): `C56_and_differs_from_iand`.
    As `==` between JSSets looks at the order, `a <= b` and `b <= a` do not imply
    `a == b` (`C56_comparisons_partial`; by reading for `==`).

31. The cause of an exception that was being handled is lost when an exception is turned
    into an Error: `C58_cause_of_context_lost`.  (The text shows contexts but no causes,
    the chain of causes starts from the outermost exception only.)
32. The numbers in front of the members of exception groups can repeat in one text:
    `C58_labels_repeat`.  A group that was being handled when a member was raised numbers
    its own members from 1 again.  `C58_labels_differ` has the condition.
33. The message of a Python exception is the first piece of `format_exception_only()`; for
    a SyntaxError that is its `File "…", line n` line, and a message of several lines is one
    piece, of which only the first line is indented inside a group (by reading).
34. An exception with a file name or message that has surrogates (Python uses them for
    undecodable names) makes `dumps` fail: hypothesis of `C58_through_dumps`, C53.
35. `pop` and `setdefault` of an element raise the spurious AssertionError of C29 too
    (`C59_pop_raises`), never directly after iterating (`C59_fresh_after_iteration`).
36. An object that lost its elements keeps their number as its array's length, so
    `o.clear()` does not make `o == JSObject()`: `C59_clear_leaves_length`.
37. Dates pass through seconds as a double, which is too coarse in the far future: a
    microsecond in 2092 comes back as another one (`C60_far_date_changes`), whole
    milliseconds near 1970 are written as a number just below them, which JavaScript
    truncates to the millisecond before (`C60_written_ms_not_whole`: 1.001 s), and
    whole milliseconds in 2267 are read as another microsecond (`C60_read_far_ms`).
    An Invalid Date and dates after 9999 make `loads` raise ValueError
    (`C60_invalid_date_raises`).
38. `set_float32` and `set_float16` of a number that is too big raise OverflowError (an
    integer: struct.error) and zero the target, where JavaScript stores infinity:
    `C61_overflow_differs`.
39. A JSMap or JSSet with an unhashable key is compared with a dict or set in iteration
    order, so `==` depends on the order (`C62_order_matters`) and can be True, which the
    documentation of JSSet excludes: `JSSet([bytearray(b"a")]) == {b"a"}`
    (`C62_unhashable_equal`).  `==` is not transitive (`C62_not_transitive`).
40. JSSets compare members by `==` alone, lists and JSMaps by `is` first, so two JSSets of
    the same NaN object differ (`C62_set_unlike_list`).
41. Equal typed arrays can have different hashes: elements of different formats and 0.0
    and -0.0 are equal, while the hash is that of the bytes
    (`C63_equal_not_same_hash`).
42. Two views on inaccessible (shared) buffers are always equal, because the exception is
    replaced by an empty buffer before `__eq__` could catch it; its
    `except NotImplementedError` and the one in `__hash__` are never reached
    (`C63_inaccessible_equal`).
43. Uint8ClampedArray does not clamp, and no integer array wraps around: a value out of
    range raises ValueError (`C63_set_int`, `C63_clamped_not_clamping`).  A number too big
    for JSFloat16Array raises ValueError; JavaScript stores infinity.
44. BackportJSFloat16Array differs from JSFloat16Array: entering and leaving the block
    rewrites NaNs (`C63_backport_changes_nan`), values are rounded twice
    (`C63_backport_rounds_twice`), numbers too big raise OverflowError only when the block
    is left, with the array half written (`C63_backport_overflow`), and assignments
    are lost when the block raises (`C63_backport_loses_edits`).
45. (By reading only.)  `JSArrayBufferView.__repr__` prints `item_length` as the value of
    `readonly`.
46. `jsset_type=set`, the type the documentation names, never works: `set |= generator` is
    TypeError for the built-in set (decode.py 1262), so every Set is rejected
    (`C64_set_unusable`).
47. `jsmap_type=dict` and `js_constants` can merge entries of a Map: 1 and true are one key
    of a dict (`C64_dict_merges_keys`), undefined and null are one key when both are None
    (`C64_constants_merge_keys`; the option is the one shown in the documentation of `loads`).
    Maps with objects as keys are TypeError (`C64_dict_unhashable`).
48. `js_array_type=dict` leaves the assignment that sets the length as an entry: the
    last index of a sparse array with JSHole as value (`C64_array_dict_phantom`).
49. `js_constants` does not apply to the booleans of Boolean objects
    (`C64_wrapped_not_constant`), and `JSErrorData.builder` keeps a missing message as None
    where `JSError.builder` makes it "" (`C64_error_message`).
50. Messages that contain a number read from the data are ValueError instead of
    DecodeV8SerializeError when the number has more than 4300 digits, because CPython
    refuses to format it: the version (decode.py 303, `C10_version_value_error`), the
    length of a string (decode.py 172), the counts and lengths of collections
    (decode.py 537-661, `C18_count_value_error`). About 2 KB of data suffice. Making an
    `IntFlag` member with defined and undefined bits formats the undefined ones too:
    RegExp flags (decode.py 411) and view flags (decode.py 803), `C17_flag_value_error`.
    (The enum class also keeps every such member for ever, CPython's
    `_value2member_map_`; memory is not modelled.)
51. `js_repr_settings` blocks that overlap leave the settings of a closed block active for
    good: the second block restores what it found, which is the JSRepr of the first
    (`C65_overlap_leaks`, `C65_never_restored`).  `force_restore=True` in both blocks has
    the same effect without a warning (`C65_force_leaks`).
52. The `repr` of a decoded error other than a plain Error is no expression: its name is
    a member of JSErrorName, printed as `name=<JSErrorName.TypeError: 'TypeError'>`
    (`C66_error_name`).
53. A JSObject (or JSArray with properties) with a property named by a reserved word, such
    as `class`, while all names look like identifiers, has a `repr` with a syntax error, as
    it is printed as a keyword argument; an identifier that is not in the normal form NFKC
    is read back as another name (`C66_keyword_name`, `C66_other_values`).
54. The `repr` of a JSObject, or sparse JSArray, that ends in holes is one for a shorter
    array, and a JSArray of holes alone is printed as `JSArray()` (`C66_other_values`).
55. A JSArray or JSSet over the limit, nested too deep, or inside itself is printed with
    `...`, which in these places is the object Ellipsis: the text evaluates without error to
    something else (`C66_other_values`).  For a JSObject it is a syntax error
    (`C66_many_properties`).
56. A reader registered for `kArrayBufferView` is never used for a view on a buffer: the
    readers for buffers read the view that follows without asking the registry
    (`C67_extension`); it is called only for views that follow no buffer, which are
    malformed.
57. A JSArrayBuffer with `readonly=True` and `copy_data=False` of a bytearray is not
    constant: it changes with the bytearray (`C68_readonly_shared`), and until it is
    closed the bytearray cannot change its length (BufferError).
58. `reverse()` of a sparse array with one or two values can raise AssertionError
    half way, and an element is then lost: `SparseArrayProperties([1, 2, JSHole,
    JSHole]).reverse()` leaves `[hole, 2, hole, hole]` (`C69_reverse_loses`).
    `extend` drops holes (`C69_extend_self_holes`; as item 10).
59. A value whose class is registered both with `Mapping` and with `Set` is neither
    written nor passed on: `encode` raises RuntimeError (`C70_ambiguous`). A more
    specific abstract class can be passed over when the value's class and it are
    virtual subclasses only (`C70_passed_over`).
60. `parse_lenient_version` is described as less strict than `packaging`, but its
    pattern lacks `re.IGNORECASE` and the white space that `packaging` allows around
    a version: `V12.9` and ` 12.9` raise InvalidVersion (`C71_capital_refused`,
    `C71_space_refused`).
61. For the same reason `10.0.29-RC1` is not a release candidate but 10.0.29 with
    the local part `rc1`, so that it is newer than 10.0.29 instead of older
    (`C71_capital_other`); `10.0.29-rc1` raises LookupError.
62. The comment says that a local part consumes everything, so that no suffix
    follows. `1.0+abc-d!f` has both, and the assertion fails: AssertionError
    instead of InvalidVersion (`C71_assertion`).
63. `==` between JS errors is not transitive: a raised and an unraised JSError both
    equal the JSErrorData with their fields, but not each other, and instances of two
    subclasses of JSErrorData both equal the same JSError (`C73_not_transitive`,
    `C73_classes_not_transitive`). Raising an error changes what it equals
    (`C73_raised`).
64. A copy of an error without a message by `JSError.from_js_error` differs from it:
    None becomes the empty string (`C73_copy_none`).
65. JSErrorData has `order=True`, but comparing an error that has a message or stack
    with one that has none raises TypeError (`C73_order_type_error`).
66. `str()` of a JSError shows the message twice, the second time as
    `_JSError__message` (`C73_str_private`).
67. A number that equals a tag without being one (a float, or a member of another
    IntEnum such as `SerializationTag.kRegExp`, 82) poisons the caches: after
    `for_error_tag(SerializationTag.kRegExp)` a RangeError is read as Error, and after
    `ArrayBufferViewStructFormat(98.0)` fails, so does the lookup by the tag of
    Int8Array (`C74_view_poisoned`, `C74_node_poisoned`, `C74_error_poisoned`). Nothing
    in the package makes such calls itself.
68. Floats used as keys: `1e-7` becomes the key `1e-07` where JavaScript has `1e-7`
    (and `0.00001` becomes `1e-05`), `1e21` becomes `1000000000000000000000` where
    JavaScript has `1e+21`, and 2^60 `1152921504606846976` where JavaScript has
    `1152921504606847000` (`C75_small_differs`, `C75_big_differs`,
    `C75_unsafe_differs`). `C75_fractions` and `C75_integers` say exactly for which
    numbers.
69. A truncated varint is reported at its last byte (and the message counts one byte
    less than was read), because `pos` of the finished loop is the index of the last
    byte and not the end of the data; with `max_bits` a longer varint is reported at its
    first byte (`C76_truncated_varint`, `C76_varint_moves`). A byte that is not a tag
    is reported at the byte, but a tag that is not handled just after it, and text
    that is not UTF-8 at the first byte of the text (`C76_tag_positions`,
    `C76_text_positions`).
70. By default Dates are read as datetimes without time zone. Two Dates an hour apart are
    then equal (`==` ignores `fold`) when the clock is set back between them
    (`C77_equal_for_an_hour`); a datetime that the clock skips is written as another
    one (`C77_skipped_changes`); Dates on the first day of the year 1 raise ValueError
    without time zone but not with one (`C77_first_day_raises`).
71. Neither side numbers Node.js host objects, but V8 does. A view written twice comes back
    as two (`C38_shared_view_duplicated`), and in a message that Node.js wrote every
    reference behind a Buffer or typed array is off by one
    (`C38_reference_after_host_object_astray`).
72. Data nested deeper than the stack raises RecursionError, neither a V8SerializeError
    nor in any other documented way; a message of 3 bytes per level is enough
    (`C79_loads_too_deep`, `C79_dumps_too_deep`).
73. The set operators of `JSMap.keys()` make Python sets.  They merge keys that are equal
    in Python (`1` and `True`), so that `m.keys() == m.keys() | set()` can be false
    (`C80_keys_merged`), and raise TypeError for keys that are not hashable, which a JSMap
    is made for (`C80_unhashable`).  `&` finds members by SameValueZero and `-` by `==`: for
    `JSMap([(1, None)]).keys()` and `{True}` both are empty (`C80_key_lost`).
74. `JSSet([1]) == {True}` and `<=` hold, `>=` does not (`C80_equal_not_superset`).  `<=` with a
    Python set raises TypeError if a member is not hashable, `==` does not
    (`C80_compare_unhashable`).
75. `-`, `^` and `&=` of a JSSet ask a Python set on the other side what it has:
    `JSSet([1]) - {True}` is empty (`C56_python_membership`).  A Python set can hold two
    NaNs, so that `s ^= {nan1, nan2}` adds NaN and removes it again (`C56_nan_twice`).
76. Typed arrays are compared and hashed by their contents, so `dumps` writes a view that equals an
    earlier one as a reference to that.  The buffer of the second view is then not written at all, and
    not even looked at: a graph is accepted though it contains a buffer that cannot be written
    (`C53_equal_view_hides`).
77. `v in o` for a JSObject or JSArray raises AttributeError when `v` is no str, int, bool or
    float: `None in o`, `(None, 1) in o.items()`, `o.keys() & {None}`, `o.get(None)`.  The reason is that
    `normalise_property_key` calls `key.is_integer()` on anything that is no str or int, and the methods of
    `Mapping` only expect KeyError.  A dict answers False (`C82_no_key`).
78. The keys view of a JSObject finds members by JavaScript name and gives them out as normalised
    keys, so it is no consistent set beside Python sets that spell keys differently.  With
    `o = JSObject({1: None})`: `o.keys() >= {'1'}` and `o.keys() & {'1'} == {'1'}`, but
    `o.keys() != {'1'}`, `o.keys() - {'1'} == {1}` and `o.keys() | {'1'} == {1, '1'}` (`C82_spelling`).
79. Most exceptions of the package cannot be copied or pickled: `copy.copy(e)` and
    `pickle.loads(pickle.dumps(e))` raise TypeError for every class with a parameter beside the
    message, because `BaseException.__reduce__` calls the class with `args` only.  An exception of
    `loads` can therefore not come back from a worker process (`C83_copy_fails`).  All but
    ForwardReferenceError are also unhashable, because `@dataclass` sets `__hash__` to None (`C83_hash`).
80. The documentation calls V8SerializeError the base class of all errors of the package, but NormalizedKeyError
    and ForwardReferenceError are none (`C83_base`).  It calls JSArrayBufferError the parent of
    the exceptions of the buffer types, but ByteLengthJSArrayBufferError is none (`C83_buffer_base`).
81. `JSError(message="m").args` is `()`: the call of `super().__init__` reaches the protocol AnyJSError, which ignores
    the message (`C83_js_error_args`).
82. `copy.copy` of a JSMap, JSSet, JSObject or JSArray is not independent of the original: both use the same dict, so an
    assignment to the copy also changes the original (`C84_shallow_shares`).  For JSObject and JSArray the elements are
    shared only until one of the two becomes sparse, while names stay shared (`C84_object_shares` and its example).
83. `copy.deepcopy` and `pickle` of a JSObject or JSArray always raise TypeError, because the slot `properties`
    holds a `MappingProxyType` (`C84_object_deep_fails`); so does a deep copy of anything that contains one, such as most
    results of `loads` (`C84_deep_raises`).
84. After `copy.deepcopy` or `pickle` of a JSMap or JSSet, keys and members that are objects are not found: the
    dict still has the identities of the original objects (`C84_deep_lost`, `C84_deep_set_lost`).  After `pickle`
    NaN is not found either (`C84_pickle`).
85. `repr()` of a JSArrayBuffer that is resizable and at its maximum is that of one with a fixed size
    (`C85_resizable_lost`); of all buffers that the constructor makes from bytes these are the only ones (`C85_made_partial`).
86. `JSArrayBufferView.__repr__` shows the item length after `readonly=` (jsbuffers.py:639).  So the text of a read-only
    view stands for a writable view, or raises ValueError (`C85_view_readonly`); it is right only for views of one item,
    because `1 in (True, None)`.
87. A JSArrayBuffer around a memoryview whose items are larger than a byte has the number of items as its maximum, and its
    text raises ByteLengthJSArrayBufferError (`C85_format_raises`).  `repr()` of one around a memoryview with steps raises
    TypeError (`C85_step_raises`).
88. Before Python 3.12 the text of a JSFloat16Array names `BackportJSFloat16Array`, which `v8serialize.jstypes` does not
    export (`C85_view_name`).
89. `frozen=True` does not stop a second call of `__init__`: JSPrimitiveObject stores the value with `object.__setattr__`
    before it checks it (jsprimitiveobject.py:60), so that after a call that raised the object wraps a value that does not
    suit its tag (`C86_init_again`).  Assigning an attribute that is no field raises TypeError instead of
    FrozenInstanceError where `slots=True` is used (`C86_frozen_other`; CPython makes the class twice).
90. The parameters `self` and `init` of `JSMap.__init__` are not positional only (jsmap.py:178-182), though its overloads say
    so and JSObject, JSArray and JSSet have it.  `JSMap(init=1)` is a TypeError instead of a map with the key "init", and
    `JSMap(init={"a": 2})` has the key "a" (`C87_init`); `JSMap(self=1)` is a TypeError (`C87_self`).
91. A loop over a JSObject whose array is sparse can come to an element that its body deleted before, unless that is the
    last one (`C88_sparse_stale`: `_sorted_keys` is set to None, but the iterator keeps the list; jsarrayproperties.py:541-544),
    and the same key can come twice (`C88_sparse_twice`: `_sorted_keys.pop()` and `append` change the list under the iterator,
    lines 542 and 555).  If the body makes a dense array sparse, the loop goes on over the old array
    (`C88_switch_stale`).  A loop over `items()` then raises KeyError.
92. `repr()` of an instance of a subclass of JSObject, JSArray, JSMap, JSSet, JSError or JSArrayBuffer is `...`, whatever it
    holds (`C89_subclass`): `Repr.repr1` has no method `repr_<name of the subclass>`, so `repr_instance` calls `repr()` of the
    same object again, and the guard takes this for a cycle (_repr.py:30-42).
93. `str()` of a JSError shows a private field: `str(JSError("boom"))` is `boom: name=…, _JSError__message='boom', stack=None,
    cause=None` (`C90_js_error`; `__str__` goes through `fields(self)` and does not look at `field(repr=False)`, _errors.py:28-30,
    jserror.py:147).  `str()` of a NormalizedKeyError is its text in quotes and with escapes (`C90_key_error`: KeyError shows
    the `repr()` of its argument, _errors.py:96-98).
94. Not every write method leaves the stream as it was when it raises: `write_double` of an int that is too large for a float
    leaves the tag `N` (`C91_double`, encode.py:255-256); `write_js_primitive_object` of a string with a lone surrogate leaves
    tag and log entry (`C91_string_object`, encode.py:365-384); `write_js_regexp` its tag (`C91_regexp`); a container the
    entries before the failing one and its number, so that a later reference to it is written (`C91_left_behind`);
    `write_object_reference(serialized_id=-1)` finds the last object by Python's negative index, writes the tag and raises
    only then (`C91_negative_reference`, encode.py:586-590).  An encode step that catches the exception and writes something
    else makes a stream with that rest in it.  `write_constant` also removes a constraint that was in force before
    (`C91_constant`).
95. A loop over a JSMap or JSSet can pass over an entry in silence: with five entries, deleting the first and storing a new one
    in the first round makes the dict build its table anew, and the second entry never comes although it was there all the time;
    no RuntimeError, since the size is the same (`C92_skipped`; confirmed with a dict in CPython 3.11).  The same after `clear()`
    and as many new keys (`C92_cleared`).  An encode step that changes a map while it is written can so lose entries.  In
    JavaScript both are well defined: every entry comes.
96. `loads` takes array.array and memoryview objects as they are and reads them item by item.  An array of unsigned shorts is
    accepted though its bytes are no V8 stream, and refused though they are (`C93_wide_accepted`); a double in it is returned as
    another number in silence, since `struct.unpack_from` counts bytes where the position counts items (`C93_wide_double`);
    strings have extra NUL characters and array buffers extra bytes (`C93_wide_text`, `C93_wide_buffer`).  Signed bytes are always
    refused (`C93_signed`), and strings in spaced memoryviews raise BufferError instead of DecodeV8SerializeError
    (`C93_strided_fails`).  Buffers of unknown types, by contrast, are cast to bytes and read rightly (`C93_stream`).
97. With an empty fill value, `repr()` of an object or array that has elements and whose keyword arguments are all beyond the limit
    raises IndexError, since the first character of an empty text is asked for (`C94_empty_fill`); with a negative indent the first
    container with members raises ValueError (`C94_negative`).
98. `repr()` of an object with more elements than are shown, and also properties whose names are no identifiers, has the fill value
    twice in its dict display: `JSObject({0: 1, ..., ...})` (`C95_two_fills`).

## 6. Partial theorems

The `_partial` theorems prove their property for the inputs or clauses that the
disagreements above leave. The full statement is in `properties.jsonl`; what is
missing is in the `note` of `MANIFEST.json`. For all of them the full statement is
false of this code, and the negation is proved with a concrete witness. C22, C25, C26, C44 and C46 are stated for the graphs of C11; their witnesses are graphs in
which a reference goes astray.

## 7. Mutation tests

`seeded/LOG.jsonl` records edits of the model in a scratch copy, each a plausible
bug, with the theorems that failed. `failed` lists the property theorems whose
proof depends on a declaration that no longer checks; modules behind a failed
module are not built, so the list is a lower bound. `tightened` names the theorems
added because a wrong model still passed; the same edit was then tried again
(`...-again`) and failed. One edit fails only an example and changes no claim: the
size from which a JSObject stores its elements sparsely.
