{"id": "C01", "title": "Round trip through pack and create_unpack", "statement": "If obj is an instance of a Structured class whose attribute values are representable by their hints, and obj.pack() returns data, then cls.create_unpack(data + rest) returns an object of the same class with equal attributes, whatever bytes rest follow (none may follow when the class ends in a read-to-end string).", "quantifier": "every class built from the modelled serializers, every representable object, every trailing byte string, every prior history of the shared serializers", "why_tests_cant": "the space of classes x values x nesting is unbounded; a test fixes one class and a few values", "anchors": ["structured/structured.py: Structured.pack, Structured.create_unpack, _Proxy", "structured/serializers/api.py: CompoundSerializer", "structured/serializers/structs.py: StructSerializer"]}
{"id": "C02", "title": "The three packing methods produce the same bytes", "statement": "pack_write(stream) appends exactly the bytes pack() returns (or fails when pack() fails), and pack_into(buffer, offset), when it succeeds, leaves exactly those bytes at buffer[offset:offset+len].", "quantifier": "every class, every object, every buffer, offset and stream content", "why_tests_cant": "agreement has to hold for all serializers at once, including ones whose offsets depend on dynamic sizes", "anchors": ["structured/structured.py: pack, pack_into, pack_write", "structured/serializers/api.py: CompoundSerializer.pack_into, pack_write", "structured/serializers/arrays.py", "structured/serializers/strings.py"]}
{"id": "C03", "title": "The three unpacking methods agree", "statement": "create_unpack_from(buffer, offset) returns the same object as create_unpack(buffer[offset:]), and create_unpack_read(stream) returns the same object as create_unpack(remaining bytes) and leaves the stream just after the bytes used.", "quantifier": "every class, every byte string (well formed or not), every offset and stream position", "why_tests_cant": "depends on every dynamic size being right at every offset; tests use offset 0", "anchors": ["structured/structured.py: create_unpack, create_unpack_from, create_unpack_read", "structured/serializers/strings.py: TerminatedCharSerializer.unpack_from", "structured/serializers/strings.py: DynamicCharSerializer.unpack_from"]}
{"id": "C04", "title": "serializer.size is exact right after an operation", "statement": "Immediately after a successful pack the serializer's .size equals the number of bytes packed; immediately after a successful unpack of packed data it equals the number of bytes consumed, also when the same serializer object was used recursively during the operation.", "quantifier": "every serializer, value, nesting depth and prior value of .size", "why_tests_cant": "the attribute is mutable shared state; staleness only shows for particular sharing and recursion patterns", "anchors": ["structured/serializers/api.py: Serializer.size", "structured/serializers/api.py: CompoundSerializer._iter_packers, _iter_unpackers", "structured/serializers/arrays.py: ArraySerializer", "structured/serializers/structured.py: StructuredSerializer"]}
{"id": "C05", "title": "Operations are independent of history", "statement": "The outcome (bytes, objects or exception) of a pack or unpack does not depend on which operations ran before on the same or any other class, although serializer objects are shared between classes and keep mutable state.", "quantifier": "every pair of prior histories (all contents of the mutable serializer state), every operation", "why_tests_cant": "quantifies over all histories of shared mutable objects", "anchors": ["structured/serializers/api.py: _SpecializedCompoundSerializer", "structured/serializers/arrays.py: ArraySerializer.prepack", "structured/serializers/unions.py: AUnion.prepack", "structured/serializers/tuples.py: TupleSerializer.prepack"]}
{"id": "C06", "title": "Trailing bytes do not affect unpacking", "statement": "If create_unpack(data) succeeds and the class does not end in a read-to-end string, create_unpack(data + rest) returns the same object.", "quantifier": "every class without read-to-end strings, every data and rest", "why_tests_cant": "unbounded data; prefix-determinism is a property of the whole decoder", "anchors": ["structured/serializers/api.py: Serializer.unpack docstring", "structured/serializers/structs.py: StructSerializer.unpack", "structured/serializers/strings.py", "structured/serializers/arrays.py"]}
{"id": "C07", "title": "pack_into writes only its own window", "statement": "A pack_into(buffer, offset) never changes a byte before offset, never changes a byte at or after offset+size when it succeeds, and never changes the length of the buffer.", "quantifier": "every class, object, buffer and offset, successful or failing calls", "why_tests_cant": "frame conditions speak about all the bytes not written, for all inputs", "anchors": ["structured/structured.py: pack_into", "structured/serializers/api.py: CompoundSerializer.pack_into", "structured/serializers/strings.py: ConsumingCharSerializer.pack_into"]}
{"id": "C08", "title": "Truncated input is rejected", "statement": "If data is a proper prefix of what pack() produced, unpacking it raises an exception instead of returning an object built from missing bytes.", "quantifier": "every class without read-to-end strings, every object, every truncation point", "why_tests_cant": "every truncation point of every packed object", "anchors": ["structured/serializers/structs.py: StructSerializer.unpack, unpack_read", "structured/serializers/strings.py: DynamicCharSerializer.unpack", "structured/serializers/strings.py: NETCharSerializer.unpack"]}
{"id": "C09", "title": "Merging adjacent basic fields does not change the format", "statement": "Adding two StructSerializers gives a serializer that packs and unpacks the concatenated values exactly as a struct with both formats written one after the other; merging equal neighbouring codes into a counted code changes neither bytes, padding nor values.", "quantifier": "every pair of valid format strings with the same byte order, every byte order, every value list", "why_tests_cant": "all pairs of format strings is an infinite set; the string surgery is done with regular expressions", "anchors": ["structured/serializers/structs.py: fold_overlaps", "structured/serializers/structs.py: StructSerializer.__add__"]}
{"id": "C10", "title": "Repeating a basic type", "statement": "st * n packs n values exactly like n consecutive fields of that type and unpacks n values; 's' @ n is one byte string of length n; st * 0 is the empty serializer, st * 1 is st, negative n raises ValueError.", "quantifier": "every basic type, every n", "why_tests_cant": "every repeat count", "anchors": ["structured/serializers/structs.py: StructSerializer._mul_impl, __mul__, __matmul__", "structured/serializers/strings.py: static_char_serializer"]}
{"id": "C11", "title": "num_values is the number of values", "statement": "Unpacking with a serializer yields exactly num_values values, and adding serializers adds their num_values.", "quantifier": "every serializer and every input", "why_tests_cant": "slicing of values in compound packing relies on it for every combination", "anchors": ["structured/serializers/api.py: Serializer.num_values", "structured/serializers/structs.py: compute_num_values", "structured/serializers/arrays.py: DynamicStructArraySerializer.__init__"]}
{"id": "C12", "title": "A class's byte order applies to all its own fields", "statement": "For a class declared with a given byte_order, every multi-byte number that belongs to the class itself (basic fields, array headers and items, string length prefixes, tuple members, union members) is packed in that byte order.", "quantifier": "every class and every byte order", "why_tests_cant": "quantifies over all field combinations; tests only check plain integers", "anchors": ["structured/structured.py: Structured.__init_subclass__", "structured/serializers/api.py: Serializer.with_byte_order", "structured/serializers/tuples.py: TupleSerializer", "structured/serializers/strings.py: UnicodeSerializer", "structured/serializers/unions.py: AUnion"]}
{"id": "C13", "title": "Integer encoding is positional in the chosen byte order", "statement": "Packing an in-range integer with '<' writes its base-256 digits least significant first (two's complement for signed types), with '>' or '!' exactly the reverse; out-of-range integers raise an error and never wrap; results for '<', '>' and '!' do not depend on the host.", "quantifier": "every integer type, every integer, every host endianness", "why_tests_cant": "every integer value", "anchors": ["structured/hint_types/basic_types.py", "structured/base_types.py: ByteOrder", "structured/serializers/structs.py: StructSerializer"]}
{"id": "C14", "title": "Length-prefixed byte strings (char[uint*])", "statement": "Packing a bytes value b with char[uintN] yields the length of b as a uintN followed by b, for every b that is short enough including the empty string and in every byte order; longer values raise; unpacking inverts it.", "quantifier": "every byte string, every prefix type, every byte order", "why_tests_cant": "every length including the boundary lengths of each prefix type", "anchors": ["structured/serializers/strings.py: DynamicCharSerializer", "structured/hint_types/strings.py: char"]}
{"id": "C15", "title": "Terminated byte strings (char[b'\\0'])", "statement": "Unpacking returns the bytes before the first terminator and consumes the terminator; data without a terminator raises ValueError; packing writes the bytes and a terminator at the end if not already written.", "quantifier": "every byte string, terminator, data length (in particular any number of 256-byte read chunks)", "why_tests_cant": "reading is chunked by 256 bytes, so behaviour at every chunk boundary matters", "anchors": ["structured/serializers/strings.py: TerminatedCharSerializer", "README.md: char"]}
{"id": "C16", "title": ".NET length marker", "statement": "For every length up to 0x7FFF the one or two byte length marker decodes back to that length and the number of marker bytes agrees; longer strings raise ValueError; no two-byte marker decodes to a length over 0x7FFF.", "quantifier": "every length, every 16-bit marker", "why_tests_cant": "the test-suite itself says it does not verify the bit manipulation", "anchors": ["structured/serializers/strings.py: NETCharSerializer._st_count_data, _decode_length"]}
{"id": "C17", "title": "Text fields (unicode)", "statement": "A unicode field packs exactly like the char field of the same kind applied to the encoded text, and unpacking returns the text whenever decoding inverts encoding and the text does not end in NUL characters.", "quantifier": "every text, every encoder/decoder pair that round-trips, every char kind", "why_tests_cant": "every text value; NUL stripping only matters for particular texts", "anchors": ["structured/serializers/strings.py: UnicodeSerializer", "structured/hint_types/strings.py: unicode"]}
{"id": "C18", "title": "Fixed length arrays", "statement": "Packing a list whose length differs from the declared fixed length raises ValueError and produces nothing; unpacking yields exactly that many items.", "quantifier": "every fixed length, item type and list", "why_tests_cant": "every length", "anchors": ["structured/serializers/arrays.py: StaticStructArraySerializer", "structured/serializers/arrays.py: ArraySerializer._header_pack_values"]}
{"id": "C19", "title": "Counted arrays", "statement": "array[Header[uintN], T] packs the number of items as uintN followed directly by the packed items, can be combined with other fields in a class, and unpacks to the same list.", "quantifier": "every list, item type and position in the class", "why_tests_cant": "every list and every neighbouring field", "anchors": ["structured/serializers/arrays.py: DynamicStructArraySerializer", "structured/serializers/arrays.py: ArraySerializer", "README.md: Arrays"]}
{"id": "C20", "title": "Data-size header is written and checked", "statement": "array[Header[n, uintM], T] (n fixed or counted) writes the byte size of the items in the header; unpacking succeeds only if the stored size equals the number of bytes the items used, otherwise ValueError.", "quantifier": "every item type, list and stored size", "why_tests_cant": "every mismatching size must be rejected", "anchors": ["structured/serializers/arrays.py: ArraySerializer._check_data_size, _header_pack_values, _header_unpack_values", "structured/hint_types/arrays.py: array", "README.md: Arrays"]}
{"id": "C21", "title": "LookbackDecider unions", "statement": "A union field is packed and unpacked with the type the decision map gives for the decider's result on the object (the default type if unmapped and given, ValueError otherwise); during unpacking the decider sees exactly the attributes unpacked before.", "quantifier": "every decider function, map, object and position", "why_tests_cant": "deciders are arbitrary functions", "anchors": ["structured/serializers/unions.py: AUnion.get_serializer, LookbackDecider", "structured/structured.py: _Proxy"]}
{"id": "C22", "title": "LookaheadDecider unions rewind", "statement": "Unpacking a lookahead union decodes the key from the upcoming bytes and then decodes the chosen type starting at the same position, so the key bytes are not consumed; this holds for buffers, offsets and streams.", "quantifier": "every read-ahead type, map and data", "why_tests_cant": "the rewind uses the mutable size of the read-ahead serializer", "anchors": ["structured/serializers/unions.py: LookaheadDecider"]}
{"id": "C23", "title": "Condition", "statement": "A field with Condition(c, *defaults) whose condition is False contributes no bytes, and on unpacking gets the defaults without consuming input; when True it behaves as the same field without Condition, for every serializable type.", "quantifier": "every condition function, wrapped type and object", "why_tests_cant": "conditions are arbitrary functions and the wrapped type is arbitrary", "anchors": ["structured/serializers/conditional.py: ConditionalSerializer, SkipSerializer", "structured/hint_types/condition.py", "README.md: Condition"]}
{"id": "C24", "title": "Nothing can follow a read-to-end field", "statement": "A class in which any field follows a field that reads to the end of input (directly, inside unicode, tuple, union, Condition or nested class) cannot be created: TypeError; such types cannot be array items either.", "quantifier": "every field list", "why_tests_cant": "every position and nesting of the consuming type", "anchors": ["structured/serializers/api.py: Serializer.__add__, is_final, get_final", "structured/serializers/unions.py: AUnion.get_final", "structured/hint_types/arrays.py: array"]}
{"id": "C25", "title": "Nested Structured fields are inlined", "statement": "A field hinted with a Structured class contributes exactly the bytes its value's own pack() returns, in the inner class's own byte order, and unpacks by the inner class's create_unpack at that position.", "quantifier": "every inner and outer class, every object", "why_tests_cant": "every nesting", "anchors": ["structured/serializers/structured.py: StructuredSerializer"]}
{"id": "C26", "title": "Self-referential classes", "statement": "Objects of classes that refer to themselves with typing.Self (directly, in arrays, unions, tuples or conditionally) pack and unpack correctly at every nesting depth that fits the recursion limit, through every unpacking method.", "quantifier": "every nesting depth and shape of the object tree", "why_tests_cant": "unbounded recursion over one shared serializer object", "anchors": ["structured/serializers/self.py: SelfSerializer", "structured/serializers/arrays.py", "structured/structured.py: Structured.unpack"]}
{"id": "C27", "title": "Field order under subclassing", "statement": "attrs lists the serialized attributes in order of first declaration along the inheritance chain; redefining an attribute's type keeps its position; redefining it with a non-serializable type removes it; new attributes come after inherited ones.", "quantifier": "every inheritance chain and annotation set", "why_tests_cant": "unbounded chains", "anchors": ["structured/structured.py: Structured.__init_subclass__, filter_typehints", "README.md: Subclassing"]}
{"id": "C28", "title": "Padding fields", "statement": "Every pad field, including several all named _, contributes its bytes; pads are never attributes or __init__ arguments, are written as zeros, and their content is ignored when unpacking.", "quantifier": "every number and placement of pads, every pad content", "why_tests_cant": "every pad content and arrangement", "anchors": ["structured/structured.py: ispad, MetaDict", "structured/hint_types/basic_types.py: pad"]}
{"id": "C29", "title": "Generated __init__ and unpack assign the right attributes", "statement": "cls(*values) sets the i-th attribute in attrs to the i-th value and rejects a wrong number of values; unpacking assigns exactly the attributes in attrs, each exactly once, and raises if the number of values differs.", "quantifier": "every class and value list", "why_tests_cant": "every arity", "anchors": ["structured/structured.py: gen_init, Structured.unpack, _Proxy", "structured/utils.py: zips, attrgetter"]}
{"id": "C30", "title": "Equality of instances", "statement": "== on Structured instances holds exactly when both have the same class and all serialized attributes are equal; it is reflexive, symmetric and transitive when attribute equality is, and objects equal in this sense pack to the same bytes when attribute equality is identity.", "quantifier": "every pair and triple of instances", "why_tests_cant": "equivalence laws quantify over all instances", "anchors": ["structured/structured.py: Structured.__eq__"]}
{"id": "C31", "title": "Generic specialization is substitution", "statement": "Resolving a generic hint with a type-variable map replaces every mapped variable at every depth; resolving in two steps with disjoint closed maps equals resolving once with the union; fully resolved hints contain no variables.", "quantifier": "every alias tree and every variable map", "why_tests_cant": "unbounded nesting of aliases", "anchors": ["structured/utils.py: StructuredAlias.resolve", "structured/structured.py: _get_specialization_hints"]}
{"id": "C32", "title": "Byte order conflicts between base and derived class", "statement": "Creating a subclass whose byte_order differs from its base's raises ValueError unless byte_order_mode is OVERRIDE; with OVERRIDE all inherited fields use the new byte order; inheriting from two Structured classes raises TypeError.", "quantifier": "every pair of byte orders, every class", "why_tests_cant": "all combinations of declarations", "anchors": ["structured/structured.py: Structured.__init_subclass__, get_structured_base"]}
{"id": "C33", "title": "Equality and hash of StructSerializers", "statement": "Equal StructSerializers have equal hashes and pack and unpack identically; serializers of different kinds (with and without actions) are never equal; equality is an equivalence relation.", "quantifier": "every pair of StructSerializers", "why_tests_cant": "hash/eq coherence ranges over all pairs", "anchors": ["structured/serializers/structs.py: StructSerializer.__eq__, __hash__, StructActionSerializer.__eq__, __hash__"]}
{"id": "C34", "title": "Adding serializers", "statement": "sum of serializers behaves as running them one after another: NullSerializer is a two-sided identity, grouping does not matter for the resulting behaviour, no CompoundSerializer is nested in another, and the order of fields is preserved.", "quantifier": "every list of serializers", "why_tests_cant": "every list and grouping", "anchors": ["structured/serializers/api.py: Serializer.__add__, NullSerializer.__add__, CompoundSerializer.__add__, __radd__, _add_impl"]}
{"id": "C35", "title": "Custom types through SerializeAs", "statement": "A SerializeAs field packs like its underlying basic type and unpacking applies the factory to exactly that field's value and to no other, also after merging with neighbours, repeating in arrays and changing byte order.", "quantifier": "every factory, every mix of plain and custom fields", "why_tests_cant": "the alignment of the action tuple with the value tuple must hold for every combination", "anchors": ["structured/serializers/structs.py: StructActionSerializer", "structured/hint_types/serialize_as.py"]}
{"id": "C36", "title": "with_byte_order on instances and serializers", "statement": "obj.with_byte_order(bo) leaves obj unchanged and returns an object with equal attributes that packs in byte order bo; for serializers the last byte order applied wins and applying the current one changes nothing.", "quantifier": "every object, class and sequence of byte orders", "why_tests_cant": "every sequence of byte orders", "anchors": ["structured/structured.py: Structured.with_byte_order", "structured/serializers/structs.py: StructSerializer.with_byte_order", "structured/serializers/arrays.py: with_byte_order"]}
{"id": "C37", "title": "pack_write failures never damage earlier stream content", "statement": "If pack_write raises, the stream content before the starting position is unchanged and what was written is a prefix-by-field of the object; pack and unpack never modify the stream or buffer they do not own.", "quantifier": "every failure point", "why_tests_cant": "every field at which packing can fail", "anchors": ["structured/serializers/api.py: CompoundSerializer.pack_write", "structured/serializers/arrays.py: ArraySerializer.pack_write"]}
{"id": "C38", "title": "A larger recursion limit never changes a result", "statement": "If an operation completes under some recursion limit it gives the same result under every larger one; for classes without Self and without cycles some limit always suffices.", "quantifier": "every operation and limit", "why_tests_cant": "all limits and nesting depths", "anchors": ["structured/serializers/self.py: SelfSerializer", "structured/serializers/structured.py: StructuredSerializer"]}
{"id": "C39", "title": "Annotated hints resolve to the innermost serializer", "statement": "transform of a hint nested in any number of Annotated layers yields the same serializer as the bare hint; a Condition or SerializeAs applies to the hint it is attached to; non-serializable hints, ClassVars and unindexed types are not treated as fields (unindexed types raise TypeError).", "quantifier": "every nesting of Annotated", "why_tests_cant": "unbounded nesting", "anchors": ["structured/type_checking.py: _annotated.transform, flatten_Annotated", "structured/structured.py: transform_typehint"]}
{"id": "C40", "title": "Concurrent use of one class", "statement": "Two threads packing or unpacking different objects of the same class at the same time get the same results as one after the other.", "quantifier": "every interleaving of the two operations' steps", "why_tests_cant": "all schedules; the shared .size and partial-object attributes are read and written without locks", "anchors": ["structured/serializers/api.py: CompoundSerializer._iter_packers", "structured/serializers/arrays.py: ArraySerializer.pack", "structured/serializers/strings.py: DynamicCharSerializer"]}
{"id": "C41", "title": "strict zip", "statement": "zips(*iterables, strict=True) yields the tuples of zip and raises ValueError exactly when the iterables have different lengths; unpacking into an object gives the same result on every supported Python version.", "quantifier": "all numbers and lengths of iterables, all classes, objects and data", "why_tests_cant": "all lengths; on Python 3.9 the check after zip cannot see a value that zip has already taken", "anchors": ["structured/utils.py: zips", "structured/structured.py: Structured.unpack", "structured/structured.py: _Proxy.__call__"]}
{"id": "C42", "title": "Negative offsets count from the end of the buffer", "statement": "create_unpack_from, unpack_from and pack_into with an offset -k, 0 < k <= len(buffer), give the same result as with offset len(buffer) - k.", "quantifier": "all programs, buffers and negative offsets inside the buffer", "why_tests_cant": "all buffers and offsets; containers add sizes to the offset without looking at its sign, so it can pass from -1 to 0", "anchors": ["structured/serializers/api.py: CompoundSerializer.unpack_from, pack_into", "structured/serializers/strings.py: TerminatedCharSerializer.unpack_from, ConsumingCharSerializer.pack_into", "structured/serializers/arrays.py: ArraySerializer.unpack_from", "structured/structured.py: Structured.create_unpack_from, pack_into"]}
{"id": "C43", "title": "Booleans, floats and the values of numeric fields", "statement": "bool8 writes the truth value of any object as 0 or 1 and reads every non-zero byte as True; float64 writes exactly the 8 bytes of the number in the byte order and reads them back unchanged, float32 and float16 the bytes of the rounded number, numbers too large raising OverflowError (struct.error for an int); numeric fields take ints, bools and instances of subclasses as the number they stand for and raise struct.error for anything else.", "quantifier": "all values, all byte orders, all byte strings read", "why_tests_cant": "all objects of the value universe and all byte strings, unbounded", "anchors": ["structured/hint_types/basic_types.py: bool8, float16, float32, float64, int8", "structured/serializers/structs.py: StructSerializer.pack, unpack"]}
{"id": "C44", "title": "Byte strings of fixed length", "statement": "char[n] writes exactly n bytes, the given ones cut off or filled up with zeros, and reads n bytes unchanged, so exactly the strings of length n survive; pascal[n] writes a length byte and at most n - 1 (and counts at most 255) bytes, and reads back the bytes counted; char[0] and pascal[0] are no field, negative n is a ValueError; values that are no byte strings raise struct.error.", "quantifier": "all n, all byte strings, all byte orders", "why_tests_cant": "all lengths", "anchors": ["structured/hint_types/basic_types.py: counted.__class_getitem__, pascal", "structured/hint_types/strings.py: char._create", "structured/serializers/structs.py: StructSerializer.__matmul__", "structured/serializers/strings.py: static_char_serializer"]}
{"id": "C45", "title": "A failed unpack leaves the object unchanged", "statement": "When obj.unpack, unpack_from or unpack_read raises, every attribute of the object has the value it had before the call.", "quantifier": "all classes, objects, buffers, offsets and files, all ways to fail", "why_tests_cant": "all data; the attributes are assigned while the values arrive", "anchors": ["structured/structured.py: Structured.unpack, unpack_from, unpack_read", "structured/serializers/api.py: CompoundSerializer.unpack, _SpecializedCompoundSerializer.unpack"]}
{"id": "C46", "title": "The kind of buffer does not matter", "statement": "create_unpack and create_unpack_from give the same object (or exception) for a bytearray or a memoryview as for bytes with the same contents; pack_into a memoryview has the same effect as pack_into a bytearray.", "quantifier": "all programs, objects, contents of buffers and offsets, bytes, bytearray, read-only and writable views", "why_tests_cant": "all programs and contents; the strings that end with the buffer are slices of it, and slices differ between kinds", "anchors": ["structured/serializers/strings.py: ConsumingCharSerializer.unpack, unpack_from, pack_into, NETCharSerializer.unpack, DynamicCharSerializer.unpack, TerminatedCharSerializer.unpack_from, UnicodeSerializer.unpack", "structured/serializers/unions.py: AUnion.get_serializer", "structured/serializers/structs.py: StructSerializer.unpack"]}
{"id": "C47", "title": "A call uses only the serializers of the classes involved", "statement": "Packing an object reads and changes size and _partial_object only on the serializers of the objects in it, and unpacking only on those of the classes it can make; so calls with other classes, before or at the same time in other threads, make no difference, and packing an object that has a byte order of its own does not touch the serializers of its class.", "quantifier": "all classes, objects, buffers and streams, all earlier calls, all numbers of threads and all schedules of single attribute accesses", "why_tests_cant": "all programs, call sequences and schedules; the attributes are shared by all users of a serializer object", "anchors": ["structured/serializers/api.py: Serializer.size, prepack, preunpack, CompoundSerializer.with_byte_order", "structured/serializers/arrays.py: ArraySerializer", "structured/serializers/self.py: SelfSerializer", "structured/serializers/unions.py: AUnion", "structured/serializers/structured.py: StructuredSerializer", "structured/structured.py: Structured.pack, unpack, with_byte_order"]}
{"id": "C48", "title": "Read-to-end byte strings (char[math.inf])", "statement": "A read-to-end byte string is packed as its bytes, unchanged and with nothing added; pack_into replaces that many bytes from the offset on and pack_write adds them to the stream. Unpacking gives everything that is left: of the buffer, behind the offset, of the stream. As the last field of a class it follows the bytes of the fields before, and takes what they leave. size is the number of bytes. A value that is no byte string is rejected with a TypeError by all three packing methods.", "quantifier": "all byte strings, buffers, offsets and streams, all lists of fields before, all values", "why_tests_cant": "all strings, inputs and classes; the serializer does not look at the kind of its value", "anchors": ["structured/serializers/strings.py: ConsumingCharSerializer", "structured/serializers/api.py: CompoundSerializer"]}
{"id": "C49", "title": "Packed objects are uniquely decodable", "statement": "Different objects of a class pack to different bytes; unless the class ends in a read-to-end string, the bytes of one object are never the beginning of those of another. Objects of any classes written one after another, to a stream with pack_write or into one byte string, are read back one by one by create_unpack_read or by create_unpack_from at offsets advanced by the serializer's size.", "quantifier": "all classes, all lists of objects, all contents around them", "why_tests_cant": "all programs, objects and numbers of objects", "anchors": ["structured/structured.py: Structured.pack, pack_write, create_unpack, create_unpack_from, create_unpack_read", "structured/serializers/api.py: Serializer.size"]}
{"id": "C50", "title": "Packing an unpacked object reproduces the bytes", "statement": "If create_unpack/create_unpack_from/create_unpack_read of a class of exact types returns an object after using the bytes b (as many as the serializer's size says; on a stream, from the old to the new position), then packing this object succeeds and gives exactly b; so unpacking at an offset and packing into the same place, or reading, seeking back and writing, leaves the buffer or stream as it was. Exact types are basic types without padding, alignment bytes, booleans, pascal strings, short floats and transformations; read-to-end strings; terminated strings and text in them; arrays with Header; fixed arrays; tuples; lookback unions and conditions that look at earlier fields; nested classes and Self. With char[uint*] and array[uint*, T] too: if packing succeeds and the string was not cut off. It is false for each of the excluded types (witnesses).", "quantifier": "for all programs of exact classes (settled), recursion limits, byte strings, offsets, stream contents and positions, and serializer states", "why_tests_cant": "Editing a file means unpacking it, changing one field and packing it: everything else must stay as it was, byte by byte.", "anchors": ["structured/structured.py: Structured.pack, pack_into, pack_write, create_unpack, create_unpack_from, create_unpack_read", "structured/serializers/structs.py: StructSerializer", "structured/serializers/arrays.py: ArraySerializer, StaticStructArraySerializer, DynamicStructArraySerializer", "structured/serializers/strings.py: DynamicCharSerializer, TerminatedCharSerializer, ConsumingCharSerializer, UnicodeSerializer", "structured/serializers/unions.py: LookbackDecider", "structured/serializers/conditional.py: ConditionalSerializer"]}
{"id": "C51", "title": "Texts of objects show their fields", "statement": "str(obj) is the class name followed, in parentheses, by every field in order as name=value; repr(obj) is the same in angle brackets. Nothing else is shown (not the byte order of the instance, not other attributes); a deleted field is an AttributeError. Numbers are shown as decimal numerals, bytes (and texts in lists) as literals that read back as the same value, lists and tuples item by item. Two objects with the same text are the same: same class and same values of the same types at every depth, if classes have different names and fields hold no texts, floats or values of user types. It is false for fields that hold texts, and str may fail for numbers with too many digits (witnesses).", "quantifier": "for all programs, objects, nesting depths, values and digit limits", "why_tests_cant": "Texts are what users see in logs and test failures: two different objects that look the same hide the difference.", "anchors": ["structured/structured.py: Structured.__str__, Structured.__repr__"]}
{"id": "C52", "title": "Type hints mean what the documentation says", "statement": "From the class statements on: if every class of a program is made by a class statement (possibly with base classes) whose annotations are the documented type hints - integers of 1, 2, 4, 8 bytes, bool8, float16, float32, float64, char[n], pascal[n], char[uintN], char[b'x'], char[math.inf], char[NET], unicode of one of the kinds of char, arrays with a fixed length, with a length, with a length and a size, tuples, other classes, Self, unions with a LookbackDecider or a LookaheadDecider of an integer type, pads and Conditions - then an object is packed as the documented bytes: field after field, integers in the byte order of the class (in the default and `@` byte orders each number of a run of basic fields, and the second number in front of an array, after the zeros that align it, counted from the start of the run), strings and arrays with their lengths in front, unions as what the decider says, pads as zeros, fields whose condition does not hold as nothing; and these bytes are unpacked (from a buffer, at an offset, from a stream, with other bytes around them) as that object, char[n] filled up with zeros, small floats rounded and texts without zeros at their end. It is false, with witnesses, for length-prefixed strings and tuples in an explicit byte order, for length-prefixed arrays of basic types next to other fields, and for arrays of basic types with a size; and tuples of several items that are not all basic are read as generators; unions keep the host byte order; conditions on Self, tuples, record arrays and unions fail; a class that is one condition cannot be nested; a field called cls hides Self.", "quantifier": "for all programs, class statements, nestings of formats, objects, byte orders and platforms", "why_tests_cant": "This is what users rely on: reading the class statement tells the bytes; every step between (evaluating hints, adding serializers, byte orders, nesting) must keep it.", "anchors": ["structured/structured.py: Structured.__init_subclass__, structured/hint_types/*.py, structured/serializers/*.py"]}
{"id": "C53", "title": "What may be written in the brackets of the library's types", "statement": "char[x] and unicode[x] accept uint8, uint16, uint32, uint64, a number that is not negative, NET, a terminator of one byte and math.inf; Header[length, size] accepts an unsigned integer type or a number that is not negative as length, an unsigned integer type or nothing as size; array[header, item] accepts a Header and a type with a serializer that does not read to the end; pad[n] and pascal[n] a number that is not negative; SerializeAs a basic type with one value, and with_factory replaces what is called with it. Each accepted argument makes the documented serializer. Type variables make an alias. Everything else raises where it is written: negative numbers and terminators of another length a ValueError, other arguments a TypeError.", "quantifier": "for all arguments: numbers, byte strings, types and objects of the library", "why_tests_cant": "A mistake in a type hint must be noticed when the class is written, not when data is read.", "anchors": ["structured/hint_types/strings.py: char, unicode", "structured/hint_types/arrays.py: Header, array", "structured/hint_types/basic_types.py: counted, pad, pascal", "structured/hint_types/serialize_as.py: SerializeAs"]}
{"id": "C54", "title": "Calling a deprecated function warns once and does what the function does", "statement": "A function decorated with @deprecated(version, removal, issue=..., use_instead=...) does, when called, what the function inside does with the same arguments, after exactly one warning is passed to warnings.warn. The warning is attributed to the caller of the function, says how the function is called at that moment (module and qualified name), the two versions, what to use instead or that there is no replacement, and links to the issue. If warnings are errors the function is not called. With x=... the warning is about x. The decorated function keeps module and name, and its documentation is that of the function inside with a notice added at the end; no documentation stays none. One decorator used for several functions names each of them, and the link leads to the issues of this project.", "quantifier": "for all functions, arguments of the decorator, warning filters and all that happens between decoration and call", "why_tests_cant": "Deprecated functions must stay usable until they are removed, and users must learn what to change.", "anchors": ["structured/utils.py: deprecated, warn_deprecated, _stringify, _issue_url"]}
{"id": "C55", "title": "The places of the fields of a class of basic types", "statement": "In an object of a class whose fields are all numbers, bools, char[n], pascal[n] or pad[n] every field has a fixed place, counted from the start of the object. In the default and '@' byte orders a number starts at the next multiple of its size, as a C compiler lays out a struct; in the other byte orders each field starts where the one before ends. At the place of a field are the bytes that its type alone gives for the value, in the byte order of the object; all bytes that belong to no field and the bytes of pads are zero, and nothing follows the last field. Reading takes each field from its place alone, ignores the bytes between, takes as many bytes as packing gives, and raises struct.error if there are fewer. The serializer of the class is a StructSerializer whose format string is that of the fields one after the other with equal neighbours counted together (2bI4x10s2xI in the documentation). This holds for pack, pack_into at any offset, pack_write, unpack, unpack_from, unpack_read and the create_ methods, with and without base classes, and for objects with a byte order of their own.", "quantifier": "for all classes made of such fields, all byte orders, values, buffers, offsets and streams", "why_tests_cant": "Tests check a few sequences of fields; the places depend on every field in front and on how formats are joined.", "anchors": ["structured/structured.py: Structured.__init_subclass__", "structured/serializers/structs.py: StructSerializer.__add__, fold_overlaps, with_byte_order"]}
{"id": "C56", "title": "Unpacking any bytes is the parser that the type hints describe", "statement": "Reading a class from bytes gives what its type hints describe, for any bytes whatever, also those that no object packs to. The fields are read one after the other: numbers of the given width in the byte order of the class, with the alignment of the default and '@' orders inside runs of basic fields; char[n] as they are; pascal strings and strings with a length by their length, taking what is there if bytes are missing; terminated strings up to the terminator, which is dropped; text decoded, without the NULs at its end; arrays as so many items one after the other, and if a size is given it must be the number of bytes that the items take, else ValueError; tuples, objects and Self; unions as the decider says of what has been read so far, or of the number in front; fields with a condition only if it holds of what has been read so far, else they have their default; pads may be any bytes. If there are too few bytes for a number it is struct.error, a missing terminator ValueError, a choice that is no key ValueError if there is no default, and an unhashable one TypeError; errors of decoders, deciders and conditions are passed on. The result is the object or the exception of the first field, in order, where one occurs, and otherwise nothing but RecursionError happens, which does not happen if the limit is high enough. After reading, the serializer reports the number of bytes taken, and a stream is just behind them.", "quantifier": "for all programs whose classes are documented, all classes of them, all bytes, recursion limits, offsets, streams and earlier uses", "why_tests_cant": "Tests read bytes that were packed, and a few that are too short; here every byte string and every exception is covered.", "anchors": ["structured/structured.py: Structured.create_unpack, create_unpack_from, create_unpack_read", "structured/serializers/api.py: CompoundSerializer.unpack, SpecializedCompoundSerializer.unpack", "structured/serializers/arrays.py: ArraySerializer.unpack", "structured/serializers/unions.py: LookbackDecider, LookaheadDecider"]}
{"id": "C57", "title": "Malformed bytes raise only the exceptions of the type hints", "statement": "Reading a class from bytes of any kind, also cut off, changed or random ones, either gives an object or raises an exception that can be read off the type hints: struct.error for numbers, bools, char[n], pascal strings, pads and strings with a length, ValueError for a missing terminator, a wrong data size and an unknown choice, TypeError for an unhashable choice, KeyError or AttributeError for a decider or a condition that looks for what is not there, and what decoders, deciders and conditions raise themselves; and RecursionError. Strings that go to the end raise nothing. A class whose fields are only basic types and pads raises only struct.error. No IndexError, OverflowError or NotImplementedError comes from the library itself.", "quantifier": "for all programs whose classes are documented, all classes of them, all bytes, recursion limits and earlier uses; offsets and streams without strings with a length", "why_tests_cant": "A caller that reads untrusted bytes needs to know what to catch. Tests show single exceptions, but cannot show that there are no others.", "anchors": ["structured/structured.py: Structured.create_unpack", "structured/serializers/api.py: CompoundSerializer.unpack", "structured/serializers/arrays.py: ArraySerializer.unpack", "structured/serializers/strings.py", "structured/serializers/unions.py"]}
{"id": "C58", "title": "Arrays and tuples pack any sequence as the list of its items", "statement": "Where a list or a tuple is expected, packing a tuple, a list, a byte string or a text gives exactly what the list of its items gives: the same bytes, the same exception, the same reported size and the same effect on buffers and streams. A byte string has its numbers as items, a text its characters. A value that has no items is refused.", "quantifier": "for all serializers of arrays and tuples, all values, states, offsets and recursion limits", "why_tests_cant": "Tests pack lists only; the paths through len, iteration and argument unpacking differ between the four array and tuple serializers.", "anchors": ["structured/serializers/arrays.py: ArraySerializer.pack, StaticStructArraySerializer.pack, DynamicStructArraySerializer._packer", "structured/serializers/tuples.py: TupleSerializer.pack"]}
{"id": "C59", "title": "The source of the generated __init__", "statement": "The text that gen_init executes for a class is Python for a function that returns __init__ with one parameter per field, in order, after self. Called with positional and keyword arguments in any mixture and order it assigns every value to the field of its name and then calls __post_init__; too many, unknown, repeated and missing arguments are a TypeError. Type names in the annotations do not matter, whether they are plain, unions or missing.", "quantifier": "for all lists of fields with distinct identifiers as names, all annotations whose names are identifiers, all values, all divisions into positional and keyword arguments and all orders of the keywords", "why_tests_cant": "The code is text that is put together from names and executed; tests run it for a few classes, with positional arguments.", "anchors": ["structured/structured.py: gen_init", "structured/structured.py: Structured.__init_subclass__ (init_vars)"]}
{"id": "C60", "title": "Brackets mean the same whatever was written before", "statement": "char[x], unicode[x, encoding] and array[Header[length, size], item] keep what they made and give it again. What they give or raise depends on their own arguments only, not on what was written before: equal arguments give one serializer object, different ones different objects.", "quantifier": "for all programs, that is all sequences of uses with all arguments: numbers, booleans, floats, byte strings, types, variables and other objects, hashable or not", "why_tests_cant": "The caches live as long as the process; what a use gives after all possible earlier uses cannot be tested.", "anchors": ["structured/hint_types/strings.py: char._create, unicode._create", "structured/hint_types/arrays.py: Header._create, array.__class_getitem__"]}
{"id": "C61", "title": "Packing accepts only what the fields can hold", "statement": "If pack() returns bytes for an object, then the object has every field of its class, every value is one that the field's type hint can hold (integers in range, strings of a size that can be written, as many items as an array has), and the bytes are those of these values one after the other, in the byte order of the object. pack() never returns anything for an object that does not fit.", "quantifier": "for all programs of classes made from documented type hints, all objects with all values in their fields, with or without a byte order of their own", "why_tests_cant": "Tests pack objects that fit and a few that do not; that nothing else is accepted is a statement about all values.", "anchors": ["structured/structured.py: Structured.pack", "structured/serializers/*: pack", "README.md"]}
{"id": "C62", "title": "Packing any object is the function the type hints describe", "statement": "What pack() does for any object at all, whatever values its fields hold, is determined by the type hints of its class: it returns the bytes of the values in the documented format, in the byte order of the object, or it raises the exception that belongs to the first value that cannot be written (struct.error for numbers out of range or of the wrong type and lengths that do not fit, ValueError for arrays of the wrong length and union keys without an option, TypeError for what cannot be iterated or hashed, OverflowError for floats that are too large, AttributeError for missing fields and what is no object, and what encoders, deciders and conditions raise). Values that fit are always packed.", "quantifier": "for all programs of classes made from documented type hints and all Python values, with or without a byte order of their own", "why_tests_cant": "Tests check a few exceptions of single serializers; which exception leaves pack() for an arbitrary object of an arbitrary class is not tested.", "anchors": ["structured/structured.py: Structured.pack", "structured/serializers/*: pack", "README.md"]}
{"id": "C63", "title": "Classes with init=False work with @dataclass", "statement": "The documentation of init says to set it to false in order to use @dataclass. A Structured class made with init=False and decorated with @dataclass keeps its format: its serializer, attributes and byte order are the same, and create_unpack, create_unpack_from and create_unpack_read give an instance on which every serialized field has the value unpacked for it and every other field its default. If all fields are serialized, == of the decorated class means the same as before.", "quantifier": "for all class statements directly derived from Structured, all fields that are not serialized, all defaults, all values and all inputs", "why_tests_cant": "Tests have no class with init=False.", "anchors": ["structured/structured.py: Structured.__init_subclass__, create_unpack, create_unpack_from, create_unpack_read", "README.md: dunders"]}
{"id": "C64", "title": "Fields may have any name", "statement": "The names of fields do not matter: a class behaves the same whatever its fields are called. Packing, unpacking, creation, comparison, construction and with_byte_order use the serializer, the attribute names, the byte order and the methods of the class, not values of fields that happen to have such a name; and the fields keep the order in which they were written.", "quantifier": "for all classes, objects, field names, byte strings, offsets, streams and byte orders", "why_tests_cant": "Tests use field names like a, b, x, data only; the comment in the code of _Proxy says that attributes of the class are not shadowed.", "anchors": ["structured/structured.py: Structured._serializer, pack, pack_into, pack_write, unpack, unpack_from, unpack_read, with_byte_order, __eq__, create_unpack, generate__init__, _Proxy", "structured/serializers/structured.py: StructuredSerializer"]}
{"id": "C65", "title": "Streams may return fewer bytes than asked for", "statement": "Reading an object from a stream whose read(n) may return fewer than n bytes before the end of the data, as raw streams, pipes and sockets do, has the same outcome as reading it from a stream that returns all it can, with the stream left at the same place, or raises struct.error; it never gives another object.", "quantifier": "all classes, objects, stream contents and positions, and every choice of how many bytes each call of read returns", "why_tests_cant": "every way of splitting the data; tests read from BytesIO, which never splits", "anchors": ["structured/serializers/structs.py: StructSerializer.unpack_read", "structured/serializers/strings.py: DynamicCharSerializer.unpack_read, TerminatedCharSerializer.unpack_read, NETCharSerializer.unpack_read", "structured/serializers/unions.py: LookaheadDecider.unpack_read", "structured/structured.py: Structured.unpack_read, create_unpack_read"]}
{"id": "C66", "title": "Streams may have no position", "statement": "Reading an object from a stream whose tell and seek raise an exception, as pipes and sockets do, has the same outcome as reading it from a stream with the same data that can be moved.", "quantifier": "all classes, objects, stream contents, exceptions of tell and seek, and every choice of how many bytes each call of read returns", "why_tests_cant": "every class and every data; tests read from BytesIO, which can be moved", "anchors": ["structured/serializers/strings.py: TerminatedCharSerializer.unpack_read, NETCharSerializer.unpack_read", "structured/serializers/unions.py: LookaheadDecider.unpack_read", "structured/serializers/arrays.py: unpack_read", "structured/serializers/api.py: unpack_read", "structured/structured.py: Structured.unpack_read, create_unpack_read"]}
{"id": "C67", "title": "Unpacked objects are no larger than the data", "statement": "No list and no byte string in an unpacked object is longer than the data it was unpacked from, apart from arrays of fixed length and values made by the program's own callbacks and defaults: a count in the data cannot make a list longer than the data.", "quantifier": "all classes, data, offsets and streams", "why_tests_cant": "every class and every count in the data, up to the largest count; tests use well-formed data", "anchors": ["structured/serializers/arrays.py: unpack, unpack_from, unpack_read", "structured/serializers/strings.py: unpack, unpack_from, unpack_read", "structured/serializers/structured.py: unpack", "structured/structured.py: Structured.create_unpack, create_unpack_from, create_unpack_read, unpack"]}
{"id": "C68", "title": "Streams may take fewer bytes than they are given", "statement": "pack_write passes exactly the bytes of pack() to writable.write, in order. If a call of write raises, pack_write raises the same exception at once and the stream holds a beginning of these bytes; if pack_write returns, the stream has all of them, also when it is a raw stream whose write may take fewer bytes than it is given.", "quantifier": "all classes, objects and streams, every sequence of answers of write", "why_tests_cant": "raw files, pipes and sockets that take part of the data, full disks; tests use BytesIO, which takes everything", "anchors": ["structured/structured.py: Structured.pack_write", "structured/serializers/api.py: CompoundSerializer.pack_write", "structured/serializers/structs.py: pack_write", "structured/serializers/strings.py: pack_write", "structured/serializers/arrays.py: pack_write", "structured/serializers/structured.py: pack_write", "structured/serializers/unions.py: pack_write", "structured/serializers/tuples.py: pack_write"]}
{"id": "C69", "title": "Unpacked objects share no mutable values", "statement": "The lists and Structured instances in an unpacked object are made by the call that unpacks it, each occurs once in the object, and no object unpacked before or later contains any of them: changing a list or a nested instance of one unpacked object in place changes no other object, also when the objects are of one class and unpacked from the same data.", "quantifier": "all classes without __post_init__, all data, the three ways of unpacking", "why_tests_cant": "programs that unpack many objects and edit some of them; tests compare values only, never identities", "anchors": ["structured/serializers/conditional.py: SkipSerializer.unpack, unpack_from, unpack_read", "structured/serializers/arrays.py: unpack, unpack_from, unpack_read", "structured/serializers/tuples.py: unpack", "structured/serializers/structured.py: unpack", "structured/structured.py: Structured.create_unpack, create_unpack_from, create_unpack_read, _Proxy"]}
{"id": "C70", "title": "Type hints give limits on the number of bytes", "statement": "From the type hints of a class follow a least number of bytes and often a greatest one (numbers and fixed texts have one size, a string or array with a length takes at most as much as the type of its length can count, a condition may take nothing, a union takes what one of its members takes, alignment included). Every packed object has a number of bytes within these limits, unpacking takes a number within them and reports it as the size, and data with fewer bytes than the least number raises an exception. If both numbers are equal all objects of the class have that size.", "quantifier": "all classes of documented type hints, all values and all data, the three ways of unpacking", "why_tests_cant": "programs that reserve space or reject short messages before unpacking; tests never compare the size of a class over different values", "anchors": ["structured/serializers/structs.py: StructSerializer.size, pack, unpack", "structured/serializers/strings.py: pack, unpack, unpack_from, unpack_read", "structured/serializers/arrays.py: pack, unpack", "structured/serializers/tuples.py: pack, unpack", "structured/serializers/unions.py: pack, unpack", "structured/serializers/conditional.py: pack, unpack", "structured/serializers/api.py: CompoundSerializer.pack, unpack", "structured/structured.py: Structured.pack, create_unpack, create_unpack_from, create_unpack_read"]}
{"id": "C71", "title": "Derived classes extend the format of their base", "statement": "The format of a class that only declares new fields begins with the format of its base class. Its objects are packed to bytes that begin with those of an object of the base class with the same values. Whatever is read as an object of the derived class can be read as an object of the base class with the same values, from a buffer, at an offset and from a stream, where the base class reads no further. What the base class refuses, packing or unpacking, the derived class refuses with the same exception. So records can be read by their common header.", "quantifier": "all pairs of classes of documented type hints where the second derives from the first, all values and all data", "why_tests_cant": "files of records with a common header whose kind says which derived class to read; no test reads the bytes of one class with another one", "anchors": ["structured/structured.py: Structured.__init_subclass__, pack, create_unpack, create_unpack_from, create_unpack_read", "structured/serializers/api.py: CompoundSerializer.pack, unpack, unpack_from, unpack_read", "structured/serializers/structs.py: StructSerializer.__add__", "structured/serializers/self.py: SelfSerializer.prepack, preunpack"]}
{"id": "C72", "title": "Changing a field changes only its bytes", "statement": "If the value of one field of an object is changed, the packed bytes change only in the bytes of that field; if the field is of a basic type they are as many as before, so everything else stays where it is. If the object can no longer be packed then the new value is to blame: no object of the class with that value in that field can be packed, whatever its other fields are. Replacing the bytes of a field of a basic type in the data changes that field of the unpacked object and nothing else. (Other fields must not look at the changed one.)", "quantifier": "all classes of documented type hints, all objects that differ in one field, all values of it", "why_tests_cant": "programs that patch one field of a record in a file, or that cache the rest of a packed record; tests compare packed bytes of single objects only", "anchors": ["structured/structured.py: Structured.pack", "structured/serializers/api.py: CompoundSerializer.pack", "structured/serializers/structs.py: StructSerializer.pack, StructActionSerializer.pack", "structured/serializers/strings.py: pack", "structured/serializers/arrays.py: pack", "structured/serializers/tuples.py: pack", "structured/serializers/unions.py: prepack, pack", "structured/serializers/conditional.py: prepack, pack"]}
{"id": "C73", "title": "Another byte order turns the numbers around", "statement": "The same object packed in another of the byte orders without alignment (<, >, !, =) raises the same exception, or gives as many bytes, the same ones but that numbers of two, four or eight bytes are turned around: no field moves, appears or goes, and strings, pad bytes and objects with a byte order of their own stay as they are.", "quantifier": "all classes of documented type hints, all objects, all pairs of byte orders without alignment, by with_byte_order or by the byte order of the class", "why_tests_cant": "programs that write the same record for two machines; tests compare a big endian class with a little endian one for single values only", "anchors": ["structured/structured.py: Structured.with_byte_order, Structured.pack", "structured/serializers/api.py: CompoundSerializer.with_byte_order, pack", "structured/serializers/structs.py: StructSerializer.with_byte_order, pack", "structured/serializers/strings.py: with_byte_order, pack", "structured/serializers/arrays.py: with_byte_order, pack", "structured/base_types.py: ByteOrder"]}
{"id": "C74", "title": "Old data stay readable when unions get new members", "statement": "In a later version of a program the unions of its classes have further members (new keys at the end of the dict of a decider, a default where there was none) and there are further classes. Whatever bytes the old version unpacks the new version unpacks to the same object, leaving streams at the same place; whatever object the old version packs the new version packs to the same bytes.", "quantifier": "all programs of documented type hints and all later versions of them in this sense, all bytes, all objects", "why_tests_cant": "programs whose file format grows; tests have one version of each class", "anchors": ["structured/serializers/unions.py: AUnion.__init__, AUnion.get_serializer, LookbackDecider, LookaheadDecider", "structured/structured.py: Structured.create_unpack, Structured.pack", "structured/serializers/api.py: CompoundSerializer"]}
{"id": "C75", "title": "The names of the fields are not part of the format", "statement": "Two classes have the same type hints in the same order under other names, and their deciders and conditions look at the same fields under these names. Then whatever bytes are unpacked as one of them are unpacked as the other with the same values, leaving streams at the same place, or raise the same exception; and objects with the same values are packed to the same bytes, or raise the same exception.", "quantifier": "all classes of documented type hints and all ways to name their fields, all bytes, all objects", "why_tests_cant": "users of the library, who take the order of the fields to be the format; tests use one set of names", "anchors": ["structured/structured.py: Structured.__init_subclass__, Structured.create_unpack, Structured.pack, _create_proxy", "structured/serializers/api.py: CompoundSerializer, Serializer.prepack, Serializer.preunpack", "structured/serializers/unions.py: LookbackDecider"]}
{"id": "C76", "title": "Unpacking comes to an end, whatever the data", "statement": "In a program in which every class reads at least one byte before it reads an object of its own kind, no data makes unpacking recurse without end: for all bytes there is one outcome, an object or one of the exceptions of the fields, that every call with enough stack gives, and objects are nested no deeper than the data is long times the number of layers of classes.", "quantifier": "all programs of documented type hints whose classes are in layers in this sense, all bytes, offsets and streams, all earlier calls", "why_tests_cant": "hostile data: every byte string of every length; tests read well-formed trees of a few levels", "anchors": ["structured/structured.py: Structured.create_unpack, create_unpack_from, create_unpack_read", "structured/serializers/self.py: SelfSerializer", "structured/serializers/structured.py: StructuredSerializer.unpack", "structured/serializers/arrays.py: unpack, unpack_from, unpack_read"]}
{"id": "C77", "title": "Equal objects are packed to the same bytes", "statement": "When == gives True for two objects of a program, packing the two gives the same bytes or raises the same exception: it makes no difference whether a number is given as a boolean or as an integer, nor whether the objects carry further attributes that are no fields.", "quantifier": "all programs of documented type hints, all pairs of equal objects, all earlier calls, no bound on the nesting or on the length of lists", "why_tests_cant": "a law of pairs of objects; tests compare an object only with the one read back from its own bytes", "anchors": ["structured/structured.py: Structured.__eq__, pack", "structured/serializers/structs.py: pack", "structured/serializers/structured.py: StructuredSerializer.pack"]}
{"id": "C78", "title": "The order in which a union lists its members does not matter", "statement": "Two programs that are the same but that unions list their members (keys with their types) in another order read the same objects from the same bytes, pack the same objects to the same bytes and raise the same exceptions.", "quantifier": "all programs of documented type hints and all permutations of the members of all unions, at every depth of nesting; all bytes, objects and earlier calls", "why_tests_cant": "two versions of a program are compared on all data; tests fix one dictionary and look at single keys", "anchors": ["structured/serializers/unions.py: LookbackDecider, LookaheadDecider", "structured/structured.py: Structured.pack, create_unpack, create_unpack_from, create_unpack_read"]}
{"id": "C79", "title": "Alignment is padding, and how padding is divided does not matter", "statement": "A class whose fields are aligned reads and writes the same as the class with the gaps written down as pad fields, and several pads in a row do the same as one pad of their total size: the same objects are read from all bytes, the same bytes are written, and the same exceptions raised.", "quantifier": "all programs of documented type hints and all ways of writing down the padding of their classes, at every depth of nesting; all bytes, offsets and streams, all objects without a byte order of their own, all earlier calls", "why_tests_cant": "two versions of a program are compared on all data; tests look at single layouts", "anchors": ["structured/hint_types/basic_types.py: pad", "structured/serializers/structs.py: StructSerializer.__add__, pack, unpack", "structured/structured.py: Structured.pack, create_unpack, create_unpack_from, create_unpack_read"]}
{"id": "C80", "title": "Repeating serializers obeys the laws of arithmetic", "statement": "Repeating a basic serializer m times and adding it repeated n times does the same as repeating it m + n times; repeating the repeated one does the same as repeating it m times n times, for * and for @; repeating it no times and adding that changes nothing. What is compared is size, number of values, bytes written and values read with all transformations.", "quantifier": "all valid formats of struct serializers, with and without actions, all byte orders, all counts, values, buffers and offsets", "why_tests_cant": "algebraic laws that relate two or three different calls, for all formats and counts at once", "anchors": ["structured/serializers/structs.py: StructSerializer.__mul__, __matmul__, _mul_impl, __add__, StructActionSerializer.__mul__, __add__", "structured/serializers/structs.py: fold_overlaps", "structured/serializers/api.py: NullSerializer.__add__"]}
{"id": "C81", "title": "Changing the byte order commutes with adding and repeating", "statement": "The sum of two basic serializers in another byte order is the sum of the two in that byte order, and a repeated serializer in another byte order is that serializer in the byte order, repeated: the results are the same to the letter, format and actions, so a class may be given its byte order before or after its fields are combined.", "quantifier": "all struct serializers with and without actions, also where adding loses items, all counts and all byte orders in which the formats of the operands are allowed", "why_tests_cant": "relates two orders of calling the library for all formats, counts and byte orders", "anchors": ["structured/serializers/structs.py: StructSerializer.with_byte_order, __add__, __mul__, StructActionSerializer.with_byte_order, __add__, __mul__, fold_overlaps"]}
{"id": "C82", "title": "The number of values of a format is right whatever was computed before", "statement": "The attribute num_values of a struct serializer is the number of values that unpacking returns and the only number that packing accepts. It is looked up in a dictionary shared by all serializers of the process; whatever serializers were made before, and when several threads make serializers at the same time, every call returns the number of its own format, and the dictionary never holds a wrong one.", "quantifier": "all histories of calls, all formats, all numbers of threads and all orders in which they use the dictionary, machines of either byte order", "why_tests_cant": "an invariant of shared state over all histories and schedules; tests see one history", "anchors": ["structured/serializers/structs.py: compute_num_values, StructSerializer.__init__"]}
{"id": "C83", "title": "The attribute getter returns a tuple whatever the number of attributes", "statement": "The getter that a class uses to fetch the values it packs returns a tuple with one value for each serialized attribute, in their order, for classes with no, one or many attributes; if the object lacks one of them AttributeError is raised and nothing is returned.", "quantifier": "all lists of attribute names of every length and all objects, with any attributes set, missing or added", "why_tests_cant": "covers the three branches by the number of names with one statement, and all objects; tests pack complete objects only", "anchors": ["structured/utils.py: attrgetter", "structured/structured.py: Structured.__init_subclass__, Structured.pack, pack_write, pack_into, with_byte_order"]}
{"id": "C84", "title": "The order of the transformers of type hints", "statement": "Transformers of type hints are applied to each annotation in turn, the one registered last first and the one registered as final last; one that returns None changes nothing. An instance with transformers of its own keeps those registered when it was made, and instances without see all registrations; none of them disturbs the others. The check given to with_final is applied after all others.", "quantifier": "all lists of transformers, registrations in every order, all instances, annotations and base types", "why_tests_cant": "about all registries, not only the one that importing the library makes, and about instances that share state", "anchors": ["structured/type_checking.py: _annotated", "structured/structured.py: final_transform", "structured/base_types.py: requires_indexing._transform"]}
