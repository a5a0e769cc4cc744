# Formal model of lojack5/structured in Lean 4

## Layers

| file (lean/Verif/…) | models |
|---|---|
| `Basic.lean` | Python values, exceptions as values, byte strings, streams, mutable serializer cells, the state+exception monad `M` |
| `StructMod.lean` | the standard-library `struct` module: format grammar, native/standard sizes and alignment, pack/unpack (trusted reading of CPython's documented behaviour) |
| `Structs.lean` | `serializers/structs.py` |
| `Ser.lean` | the serializer objects of `serializers/*.py` as a datatype, `num_values`, `get_final`, `with_byte_order`, `__add__`, `prepack/preunpack` |
| `Ops.lean` | the six operations `pack, pack_into, pack_write, unpack, unpack_from, unpack_read` of every serializer, on mutable state; `create_unpack*`, `obj.unpack*` |
| `Hints.lean` | `hint_types/*.py`, `type_checking.py`, the `_transform` methods, `StructuredAlias` |
| `Classes.lean` | `structured.py`: annotations, inheritance, generic bases, class creation |
| `Instances.lean` | `__init__`, `__eq__`, `with_byte_order` of instances |
| `Threads.lean` | the same operations as programs of single attribute reads and writes, run by any number of threads under any schedule |
| `Zips.lean` | `utils.zips` on Python 3.9 and the methods that use it |
| `NegOffset.lean` | `pack_into` and `unpack_from` again, with integer offsets and sizes |
| `InPlace.lean` | `obj.unpack*` again, with the object known when the call raises |
| `Buffers.lean` | reading from `bytearray` and `memoryview`, `pack_into` a `memoryview` |
| `Caches.lean` | `functools.cache` on the brackets of `char`, `unicode`, `Header`, `array` |
| `NumValues.lean` | `compute_num_values` with its shared dictionary |
| `AttrGetter.lean` | `utils.attrgetter` |
| `Registry.lean` | the registry of transformers of type hints, `_annotated` |
| `Text.lean` | `__str__` and `__repr__` of serializers and objects |
| `Deprecate.lean` | `utils.deprecated` |
| `GenInit.lean` | the text of the generated `__init__` |
| `Dataclass.lean` | `@dataclass` on a class made with `init=False` |
| `Names.lean` | the lookups on instances that a field of the same name gets in the way of |
| `Rest.lean` | read-to-end strings given values that are no byte strings |
| `Samples.lean` | a small program used as the concrete case beside theorems; models nothing |
| `RepoTests/*.lean` | the tests of the library, run in the model; nothing depends on them |
| `Spec/*.lean` | small specifications used in theorem statements.  `Spec/Sem.lean` is the functional reading of packing and unpacking (no mutable state) that the operations are refined to |
| `Proofs/*.lean` | helper lemmas: refinement to `Spec/Sem` (`Refine*`, `Sim*`), recursion limit (`Fuel`, `Enough`), history (`History*`), reading (`Read*`), round trips (`RoundTrip*`), sums (`Add*`), threads (`Thread*`), … |
| `Props/*.lean` | the property theorems, the examples beside them, and the refutations (`…_is_false`) where the code breaks the property |

## Trusted base

* **Lean 4.33.0's kernel.**  No compiled evaluation is trusted: no `native_decide`, no `bv_decide`, no
  `implemented_by`.  Concrete runs in examples and refutations are by `rfl`/`decide`, checked by the kernel.
* **Axioms.**  None of our own.  Each manifest theorem depends on a subset of `propext`, `Quot.sound`,
  `Classical.choice` (`#print axioms` on every name in MANIFEST.json: about half use all three, the rest
  `propext` alone or with `Quot.sound`, one uses none).  No Mathlib module is imported.
* **The reading of the code.**  That each definition says what the cited lines do is by inspection; it was not
  run against Python.  The library's own tests (`/repo/tests`), which pass in Python, are restated in `RepoTests/*.lean` and
  pass in the model, from the class statement to the bytes; left out are those about the syntax of brackets and keyword
  arguments, and `hash` of serializers.  Where a test defines a serializer of its own that reads to the end, `char[math.inf]` is used.
* **The Python runtime and standard library** as modelled: `struct` (`StructMod.lean`), `zip`, `dict` order,
  generators, `getattr`/`setattr`, `operator.attrgetter`, `typing` (`Annotated` flattening, `get_type_hints`, alias indexing),
  `bytearray` slice assignment, `BytesIO`-like streams, the `__init__` and `__eq__` of `dataclasses` (`Dataclass.lean`), and the part of the
  Python language that the generated `__init__` uses (`Spec/PyText.lean`).  Python ≥ 3.10 throughout, except `Zips.lean`.

### What is modelled

All of `serializers/*.py` (every `pack*`, `unpack*`, `prepack`, `preunpack`, `get_final`, `with_byte_order`,
`__add__`/`__radd__`, `__mul__`, `__matmul__`, `__eq__`, `__hash__`), `hint_types/*.py`, the transformations of
`type_checking.py`, `base_types.py`, in `structured.py` everything but the item below, and `utils.py`.

### What is not modelled

* An `__init__` written by hand (`init=False`) with side effects, and of `@dataclass` all but `__init__`, `__eq__` and `slots`.
* Error messages (only the kind of exception), except the texts of the deprecation warnings; typing-only code
  (`overload`, `TYPE_CHECKING`).
* The items of a generator: `TupleSerializer.unpack` may return one (a bug, C01), and packing it counts as packing a
  value without items.
* User code with side effects: deciders, conditions, factories, codecs and `__post_init__` are total functions.
* Subclasses of `Serializer` written by users; `EncoderDecoder` only through its two functions.
* Buffers other than `bytes`, `bytearray` and one-dimensional byte views (views and reading from a `bytearray` in
  `Buffers.lean` only; there, conditions never return a slice of a buffer, and codecs take nothing but `bytes`).
  Outside of `ShortReads.lean` and `ShortWrites.lean` streams are seekable, read as much as asked while data lasts, and
  write everything.
* Fields named like the attributes `Structured` itself uses (`serializer`, `attrs`, `byte_order`, `pack`, …), outside of
  `Names.lean`; there, no field called `attrs` with a sequence as value.
* Attribute values that are bytearrays: a value is either immutable or never changed by packing.
* Memory exhaustion and the interpreter's own limits, other than the recursion limit.

## Modelling decisions

* **Serializer objects are mutable and shared.**  Every stateful serializer node carries an id; `.size` and
  `_partial_object` live in a store `SerId → Cell`.  Theorems quantify over all initial stores and all id
  assignments, hence over all histories and all sharing.  `with_byte_order` is modelled with more sharing than there is
  (two copies of one serializer for one byte order have one id); witnesses of interference use no such copies.
* **Exceptions are values** (`Err`), with the state kept on error so partial writes are visible.
* **Recursion limit** is a fuel argument; running out is `RecursionError`.  Theorems hold for every fuel.
* **Deciders, conditions, factories, codecs** are arbitrary total functions (deterministic, no side effects) that
  may return an exception.
* **Host**: endianness and the C float conversions are a parameter `Platform`; nothing is assumed about them.
  Native sizes are those of LP64.
* **Offsets** are natural numbers in `Ops.lean`; negative ones are in `NegOffset.lean`, which is proved equal to
  `Ops.lean` at the others (`C42_nonneg`: for reading, without read-to-end strings).
* **Partial object snapshot**: a serializer that stores `_partial_object` stores the attributes visible at that
  moment instead of a reference.

Where a property is false of the code, the negation is proved with a concrete witness and a `_partial` theorem says
where it holds.  Per-property plans (what was proved and what is missing is in MANIFEST.json):

| id | plan |
|---|---|
| C01 | fuel induction: encoder/decoder inverse on the functional semantics, lifted to the stateful operations by refinement |
| C02 | refinement of `pack_write` and `pack_into` to the same functional encoder |
| C03 | refinement of the three readers to functional decoders, plus agreement of these; counterexample for terminated strings at offset > 0 |
| C04 | part of the refinement statement (size cell = length) |
| C05 | two runs of one call in lock step, keeping track of which attributes are known to be equal (set by the call); corollary of refinement for the older statements; counterexample for re-entrant union items |
| C06 | prefix lemma for the functional decoder |
| C07 | invariant on the buffer through `pack_into`; counterexample: `char[math.inf]` grows a bytearray |
| C08 | decoder on proper prefixes; counterexample: `char[uint8]` from a bytes buffer |
| C09, C10 | format strings as character lists; parse-level semantics of `fold_overlaps`; counterexample for multi-code right operands |
| C11 | induction over serializers; counterexample `DynamicStructArraySerializer.num_values = 0` |
| C12 | structural induction on `with_byte_order`; counterexamples tuple / unicode / union |
| C13 | arithmetic lemmas on base-256 digits |
| C14–C20 | per-serializer theorems on the operations |
| C21–C23 | per-serializer theorems, deciders/conditions arbitrary functions |
| C24 | induction over the field list through `__add__` |
| C25, C26 | theorems on `StructuredSerializer`/`SelfSerializer` operations |
| C27–C32 | model of class creation and of alias resolution, induction over chains/trees |
| C33–C36 | algebra of `__add__`, `__eq__`, actions, `with_byte_order` |
| C37 | invariant on the stream on both exits |
| C38 | fuel monotonicity |
| C39 | model of `flatten_Annotated`/`transform` |
| C40 | small-step interleaving model of the shared cells; counterexample schedule, and the operations that are safe |
| C41 | the Python 3.9 `zips` on lists with the values lost by `zip`; exact condition for `ValueError`; effect on `obj.unpack*` and `create_unpack*` |
| C42 | simulation between the integer and the natural offset, on successes; counterexamples where data wraps around the end |
| C43 | direct computation on formats of one character; the values a number or truth value stands for are inductive relations; float bits as base-256 digits |
| C44 | `@` on one character gives one string item (any count); fitted bytes described index by index |
| C45 | the assignment loop in step with the reading loop; invariant "a prefix of the fields is assigned" |
| C46 | no slice values in objects and partial objects (invariant of reading); step by step equality of the two runs; for views, equality until the first step that grows |
| C47 | footprint of the thread programs: every attribute access is on an object in the set, partial objects stay in a closed set of classes; sequential and interleaved statements from the same lemma |
| C48 | computation for one serializer; the loops over the fields with one more field at the end; `Rest.lean` for values that are no byte strings |
| C49 | from C01: reading is a function of the bytes; induction over the list of objects |
| C50 | induction over the recursion limit: what a serializer read is what it packs from the bytes it used (`Proofs/ExactMain.lean`); types for which it is false are excluded by `Spec/Exact.lean`, each with a witness |
| C51 | Texts of objects show their fields | model `Text.lean`; `Props/Text.lean`; spec `Spec/Text.lean` (a reader of literals and numerals) |
| C52 | Type hints mean what the documentation says | `Props/Format.lean`, `Props/FormatBack.lean`, examples in `Props/FormatAhead.lean` and `Props/FormatVia.lean`; specs `Spec/Format.lean` (formats, their hints and their bytes, without serializers), `Spec/FormatBack.lean` (what values come back as) |
| C53 | What may be written in brackets | `Props/Brackets.lean`: case analysis of every argument; spec `Spec/Brackets.lean` |
| C54 | Deprecated functions | `Props/Deprecate.lean`: the decorated function keeps its arguments under all later operations; spec `Spec/Deprecate.lean` |
| C55 | Places of basic fields | `Props/Align.lean`: formats of the fields joined to one, whose items are packed at the places of the spec; spec `Spec/Align.lean` |
| C56 | The parser that the type hints describe | `Props/FormatParse.lean`: `create_unpack` against the parser `readObj` of `Spec/FormatParse.lean`, which knows type hints but no serializers; the agreement `Ag` bounds what may happen under a recursion limit, `PL` follows the parts of a compound |
| C57 | Only the exceptions of the type hints | `Props/FormatRaises.lean`: by C56 the exceptions are those of the parser, and `Proofs/ParseRaises.lean` shows that these are in the set `ClassRaises` of `Spec/FormatRaises.lean`, which is read off the hints without any bytes |
| C58 | Any sequence packs as the list of its items | `Props/Sequences.lean`, against the relation `HasItems` between a value and its items |
| C59 | The source of the generated `__init__` | `GenInit.lean` puts the text together as `gen_init` does; `Spec/PyText.lean` reads and runs a small part of Python; `Props/InitSource.lean` proves that the text is read as the function `initFn`, and what calls of it do, down to `callClass` of C29 |
| C60 | The caches behind brackets | `Caches.lean`: `functools.cache` as lists searched by `==` and threaded through the uses in a program; an invariant says that each entry is what its key makes, and that hints and identities determine each other |
| C61 | What packing accepts | `Spec/FormatStore.lean` says which values a format takes and as which bytes; proved by inverting the pure semantics of packing along the type hints, and undoing the joining of neighbouring basic types and changes of byte order |
| C62 | Packing any object is the function the type hints describe | `Spec/FormatPut.lean` gives bytes or exception for every value; proved along the type hints through the pure semantics of packing, together with: the serializer of a documented class can be put into any byte order |
| C63 | Classes with init=False work with @dataclass | `Dataclass.lean` models the `__init__` and `__eq__` that Python's `dataclasses` makes; a decorated class is a class whose construction binds the values to the parameters of that `__init__` |
| C64 | Fields may have any name | `Names.lean` writes out the lookups on instances; every operation equals the one of the other files when the object's attributes avoid the names it looks up, and fails in a stated way otherwise |
| C65 | Streams may return fewer bytes than asked for | `ShortReads.lean`: `unpack_read` again with a list that says how much each call of `read` returns (or that it returns `None`); relation "same outcome or struct.error" kept by every serializer |
| C66 | Streams may have no position | `ShortReads.lean` with an exception for `tell` and `seek`; relation "same outcome or that exception" kept by every serializer, equality where neither is called |
| C67 | Unpacked objects are no larger than the data | Bound `Within`, bytes in front of the reader, items that take a byte (`Solid`); induction over the fuel with the bytes left as a measure |
| C68 | Streams may take fewer bytes than they are given | `pack_write` over a list of answers of `write` (`ShortWrites.lean`); the pieces of data do not depend on the answers (`Plays`), what a stream holds after the pieces is `feed` |
| C69 | Unpacked objects share no mutable values | unpacking with identities (`Share.lean`): a counter gives each new list and instance its own; erasing the identities gives `createUnpack` (`Sim`), identities are new and distinct, everything else mutable is a default |
| C70 | Type hints give limits on the number of bytes | limits computed from formats (`Spec/Spans.lean`); any limits of the classes that agree with those of their fields (`Limits`) hold for `writeObj`, `storeObj` and `readObj`, hence with C52, C61 and C56 for the library |
| C71 | Derived classes extend the format of their base | class statements give appended fields (C27 and `Documented`); on formats alone (`Spec/Extends.lean`) reading and packing of `fields ++ more` begins as that of `fields` if these depend only on each other; with C56 and C62 the same for the library |
| C72 | Changing a field changes only its bytes | the packing function of C62 cut at the field into three parts (`Proofs/Places.lean`), of which the first and last do not depend on it; for reading, formats that are read from their own bytes only (`Spec/Near.lean`) |
| C73 | Another byte order turns the numbers around | a relation on byte strings (`Spec/Mirror.lean`), kept by every format of C62 |
| C74 | Old data stay readable when unions get new members | a relation on formats (`Spec/Grows.lean`); the functions of C56 and C62 are monotone in it |
| C75 | The names of the fields are not part of the format | a relation on formats (`Spec/Renames.lean`) that the functions of C56 and C62 respect |
| C76 | Unpacking comes to an end, whatever the data | `Spec/Grounded.lean`: layers of classes; the parser of C56 never asks for more depth than length times layers |
| C77 | Equal objects are packed to the same bytes | `Spec/Twins.lean`: which equal values are packed alike; through the writer of C62 |
| C78 | The order in which a union lists its members does not matter | `Spec/Shuffled.lean`: permutations of the members of all unions; the reader of C56 and the writer of C62 are the same functions for both programs |
| C79 | Alignment is padding, and how padding is divided does not matter | `Spec/Spelled.lean`: fields with the number of pad bytes in front of them; the reader of C56 and the writer of C62 depend on nothing else |
| C80 | Repeating serializers obeys the laws of arithmetic | Two or three results of `*`, `@` and `+` compared with `SameStruct` (`Spec/Struct.lean`) |
| C81 | Changing the byte order commutes with adding and repeating | Equality of the serializers made by `with_byte_order`, `+` and `*` in both orders |
| C82 | The number of values of a format is right whatever was computed before | `NumValues.lean`: `compute_num_values` with its cache as state, calls in sequence and by threads in any order |
| C83 | The attribute getter returns a tuple whatever the number of attributes | `AttrGetter.lean`: `utils.attrgetter` on a model of `operator.attrgetter`, related to `getAttrs` |
| C84 | The order of the transformers of type hints | `Registry.lean`: the lists of `_annotated` and the loops of `transform`, for transformers of any type; `C84_library` relates it to `Hints.lean` |
