{
 "claims": [
  {
   "property": "C09",
   "status": "partial",
   "theorems": [
    "Verif.C09_add_partial",
    "Verif.C09_add_byte_order_conflict",
    "Verif.C09_result",
    "Verif.C09_full_is_false",
    "Verif.C09_concat_bytes"
   ],
   "note": "Proved for right operands that are a single item or do not merge; the full statement is false in the code ('h'+'hI' loses the I), proved as C09_full_is_false. C09_result says what the sum is for every pair of operands: exactly the items behind a merged one are lost."
  },
  {
   "property": "C10",
   "status": "partial",
   "theorems": [
    "Verif.C10_mul_partial",
    "Verif.C10_mul_edge",
    "Verif.C10_matmul",
    "Verif.C10_result",
    "Verif.C10_full_is_false"
   ],
   "note": "Proved for every basic type and every count; for arbitrary multi-item formats the statement is false in the code, proved as C10_full_is_false; C10_result says what such a format becomes."
  },
  {
   "property": "C13",
   "status": "proved",
   "theorems": [
    "Verif.C13_little_endian",
    "Verif.C13_big_endian",
    "Verif.C13_native_order",
    "Verif.C13_out_of_range",
    "Verif.C13_unpack_pack",
    "Verif.C13_pack_unpack",
    "Verif.C13_standard_sizes"
   ],
   "note": ""
  },
  {
   "property": "C33",
   "status": "proved",
   "theorems": [
    "Verif.C33_eq_equivalence",
    "Verif.C33_eq_hash",
    "Verif.C33_eq_same_behaviour",
    "Verif.C33_kinds_differ"
   ],
   "note": ""
  },
  {
   "property": "C35",
   "status": "partial",
   "theorems": [
    "Verif.C35_add_partial",
    "Verif.C35_mul_partial",
    "Verif.C35_add_ignores_byte_order",
    "Verif.C36_struct_with_byte_order",
    "Verif.C35_order",
    "Verif.C35_add_orders_partial",
    "Verif.C35_result",
    "Verif.C35_items_is_false",
    "Verif.C35_mul_result",
    "Verif.C35_mul_is_false"
   ],
   "note": "Byte orders are not compared when adding action serializers (C35_order; C35_add_orders_partial states the sum for all byte orders). For multi-item right operands whose format meets the left one in the same code the statement is false (C35_items_is_false); C35_result says what the sum is then. C35_mul_result says what a repeated serializer is for every format; where the format loses items the actions go to the wrong values (C35_mul_is_false)."
  },
  {
   "property": "C02",
   "status": "partial",
   "theorems": [
    "Verif.C02_pack_write",
    "Verif.C02_pack_into_partial",
    "Verif.C02_pack_into_fits",
    "Verif.C02_pack_into_fails",
    "Verif.C02_full_is_false"
   ],
   "note": "pack_write agrees with pack for every class and object. pack_into agrees whenever it leaves the length of the buffer unchanged, always succeeds when the bytes fit, and never succeeds when pack fails. C02_full_is_false is a read-to-end string packed past the end of a bytearray, which lands at the wrong place."
  },
  {
   "property": "C04",
   "status": "partial",
   "theorems": [
    "Verif.C04_pack_partial",
    "Verif.C04_pack_serializer",
    "Verif.C04_pack_write_into",
    "Verif.C04_unpack_partial",
    "Verif.C04_stream_partial",
    "Verif.C04_stream_net_partial",
    "Verif.C03_read_partial",
    "Verif.C04_full_is_false",
    "Verif.C04_stream_is_false"
   ],
   "note": "The size attribute is exact after every successful pack, pack_write and pack_into. Serializers that have no size attribute at all (Condition) are excluded; C04_full_is_false shows one. After unpacking, the reported size is exactly the prefix that was used, for classes without lookahead and for data not cut inside a length-prefixed string. After unpacking from a stream the size is how far the stream has moved, also with lookahead; false for .NET strings cut short."
  },
  {
   "property": "C07",
   "status": "partial",
   "theorems": [
    "Verif.C07_before_offset",
    "Verif.C07_after_window_partial",
    "Verif.C07_length_when_fits",
    "Verif.C07_full_is_false"
   ],
   "note": "Bytes before the offset are never changed. Length and the bytes after the window are kept when the object fits; C07_full_is_false is a read-to-end string that makes the buffer longer."
  },
  {
   "property": "C37",
   "status": "proved",
   "theorems": [
    "Verif.C37_pack_write_prefix",
    "Verif.C37_pack_write_failed",
    "Verif.C37_written_field_by_field",
    "Verif.C37_pack_changes_nothing",
    "Verif.C37_unpack_changes_nothing"
   ],
   "note": ""
  },
  {
   "property": "C38",
   "status": "proved",
   "theorems": [
    "Verif.C38_pack_larger_limit",
    "Verif.C38_pack_into_larger_limit",
    "Verif.C38_pack_write_larger_limit",
    "Verif.C38_create_unpack_larger_limit",
    "Verif.C38_unpack_larger_limit",
    "Verif.C38_pack_some_limit",
    "Verif.C38_pack_into_some_limit",
    "Verif.C38_pack_write_some_limit",
    "Verif.C38_create_unpack_some_limit"
   ],
   "note": ""
  },
  {
   "property": "C05",
   "status": "partial",
   "theorems": [
    "Verif.C05_partial",
    "Verif.C05_after_partial",
    "Verif.C05_program_partial",
    "Verif.C05_pack_partial",
    "Verif.C05_pack_plain_partial",
    "Verif.C05_pack_write_partial",
    "Verif.C05_pack_into_partial",
    "Verif.C05_unpack_partial",
    "Verif.C05_obj_unpack_partial",
    "Verif.C05_full_is_false",
    "Verif.C05_unpack_full_is_false"
   ],
   "note": "C05_partial: a call of any of the five kinds, succeeding or raising, has the same outcome from any two states of the shared serializers, when the classes meet a checkable condition (everything a call reads from a serializer object was set before by the same call); C05_program_partial: in a program of such classes, after any calls. The others give the same with other conditions. C05_full_is_false: a Condition over a union depends on earlier packing. C05_unpack_full_is_false: a tuple of several serializers is unpacked lazily and makes the next field depend on earlier operations."
  },
  {
   "property": "C03",
   "status": "partial",
   "theorems": [
    "Verif.C03_from_partial",
    "Verif.C03_read_partial",
    "Verif.C03_strings_partial",
    "Verif.C03_full_is_false",
    "Verif.C03_empty_is_false"
   ],
   "note": "All three methods give the same object or the same exception, from any states, without length-prefixed strings (and terminated ones at an offset). With them, the same object whenever the data is complete and no string is empty. The remaining cases are false in the code: C03_full_is_false (terminated string at an offset) and C03_empty_is_false (empty strings in arrays)."
  },
  {
   "property": "C06",
   "status": "partial",
   "theorems": [
    "Verif.C06_partial",
    "Verif.C06_strings_partial",
    "Verif.C08_full_is_false"
   ],
   "note": "Proved for classes without length-prefixed strings, and with them when the data was not cut short; data cut short is accepted by the code (C08_full_is_false), so appending bytes changes the object. Together with length-prefixed strings, read-ahead types are basic types or arrays of them."
  },
  {
   "property": "C08",
   "status": "partial",
   "theorems": [
    "Verif.C08_cut_partial",
    "Verif.C08_packed_partial",
    "Verif.C08_packed_from_partial",
    "Verif.C08_noticed_partial",
    "Verif.C08_full_is_false"
   ],
   "note": "Any prefix shorter than the bytes used raises, for classes without length-prefixed and read-to-end strings, and so does every prefix of packed data, for all three methods (at an offset: without terminated strings). With length-prefixed strings the code accepts data cut short (C08_full_is_false) but then reports a size larger than the data (C08_noticed_partial)."
  },
  {
   "property": "C01",
   "status": "partial",
   "theorems": [
    "Verif.C01_partial",
    "Verif.C01_from_partial",
    "Verif.C01_read_partial",
    "Verif.C01_into_from_partial",
    "Verif.C01_write_read_partial",
    "Verif.C01_full_is_false",
    "Verif.C01_tuple_is_false",
    "Verif.C01_text_is_false",
    "Verif.C01_empty_is_false",
    "Verif.C01_byte_order_is_false"
   ],
   "note": "For every representable object (Spec/RoundTrip.lean), every method pair, any bytes around and any earlier operations. What is left out is false in the code: see the _is_false theorems (arrays of numbers with padding, tuples of several serializers, text ending in NUL, empty length-prefixed strings, objects with a byte order of their own)."
  },
  {
   "property": "C26",
   "status": "partial",
   "theorems": [
    "Verif.C26_tree",
    "Verif.C26_instance_self",
    "Verif.C26_instance_unpack_is_false",
    "Verif.C26_tuple_is_false",
    "Verif.C23_self_is_false",
    "Verif.C21_items_is_false"
   ],
   "note": "Trees of a self-referencing class of every shape and depth, all three unpacking methods; other recursive classes through C01_partial. Instance unpacking, Self in a tuple, Self under a Condition, and Self in a union that is an array item fail in the code (the other theorems)."
  },
  {
   "property": "C14",
   "status": "partial",
   "theorems": [
    "Verif.C14_pack_partial",
    "Verif.C14_too_long",
    "Verif.C14_unpack_partial",
    "Verif.C14_empty_is_false",
    "Verif.C14_empty_unpack_is_false",
    "Verif.C14_byte_order_is_false"
   ],
   "note": "Every non-empty string and prefix type in the default byte order; unpacking in every byte order. The rest is false in the code: empty strings cannot be packed, and nothing can be packed when the prefix has a byte order."
  },
  {
   "property": "C15",
   "status": "partial",
   "theorems": [
    "Verif.C15_pack_partial",
    "Verif.C15_unpack",
    "Verif.C15_unterminated",
    "Verif.C15_full_is_false",
    "Verif.C15_size_is_false"
   ],
   "note": "Unpacking in full, for every method and any number of stream chunks. Packing always appends a terminator, also when the string ends with it already (C15_full_is_false)."
  },
  {
   "property": "C16",
   "status": "partial",
   "theorems": [
    "Verif.C16_marker",
    "Verif.C16_marker_injective",
    "Verif.C16_decode_bound",
    "Verif.C16_pack_partial",
    "Verif.C16_too_long",
    "Verif.C16_unpack_partial",
    "Verif.C16_empty_is_false",
    "Verif.C16_big_endian_is_false"
   ],
   "note": "Marker arithmetic in full. Packing and unpacking for every length from 1 to 0x7FFF; false in the code: the empty string cannot be packed, and long strings are misread on big-endian hosts."
  },
  {
   "property": "C17",
   "status": "partial",
   "theorems": [
    "Verif.C17_pack",
    "Verif.C17_pack_fails",
    "Verif.C17_unpack_partial",
    "Verif.C17_full_is_false"
   ],
   "note": "Packing in full. Unpacking gives the text back unless it ends in NUL; the property excludes those texts, the theorem also covers fields padded with NULs. Partial because round trips through char types inherit the restrictions of C14 to C16."
  },
  {
   "property": "C18",
   "status": "partial",
   "theorems": [
    "Verif.C18_wrong_length",
    "Verif.C18_wrong_length_error",
    "Verif.C18_pack",
    "Verif.C18_unpack_partial",
    "Verif.C18_basic_wrong_length",
    "Verif.C18_basic_pack",
    "Verif.C18_basic_unpack",
    "Verif.C18_pack_into_is_false",
    "Verif.C18_unpack_is_false"
   ],
   "note": "A list of another length is never packed, by any method, for every item type. Two parts are false in the code: pack_into writes items before it raises, and items that are empty char[uintN] vanish when read by unpack_from or unpack_read."
  },
  {
   "property": "C19",
   "status": "partial",
   "theorems": [
    "Verif.C19_pack",
    "Verif.C19_too_long",
    "Verif.C19_unpack",
    "Verif.C19_basic_pack_partial",
    "Verif.C19_basic_unpack_partial",
    "Verif.C19_with_fields_is_false",
    "Verif.C01_full_is_false",
    "Verif.C19_no_number"
   ],
   "note": "In full for arrays of item types other than basic ones. For basic types if no alignment padding falls behind the count; with other fields in the class packing always fails in the code (C19_with_fields_is_false)."
  },
  {
   "property": "C20",
   "status": "partial",
   "theorems": [
    "Verif.C20_pack",
    "Verif.C20_pack_fixed",
    "Verif.C20_unpack",
    "Verif.C20_hint_counted",
    "Verif.C20_hint_fixed",
    "Verif.C20_basic_is_false"
   ],
   "note": "In full, from the type hint to the bytes, for item types other than basic ones. For basic item types the code drops the size of the header without a word (C20_basic_is_false)."
  },
  {
   "property": "C11",
   "status": "partial",
   "theorems": [
    "Verif.C11_unpack_partial",
    "Verif.C11_given_partial",
    "Verif.C11_add_partial",
    "Verif.C11_full_is_false",
    "Verif.C11_add_is_false",
    "Verif.C14_empty_unpack_is_false"
   ],
   "note": "Every serializer whose parts are Counted (Spec/Values.lean), every input and source. Adding: every clean sum (Spec/Adding.lean). False in the code for counted arrays of basic types, empty char[uintN] read by unpack_from or unpack_read, and the sum 'h' + 'hI'."
  },
  {
   "property": "C21",
   "status": "partial",
   "theorems": [
    "Verif.C21_pack",
    "Verif.C21_unpack",
    "Verif.C21_no_type",
    "Verif.C21_hashable",
    "Verif.C21_unhashable",
    "Verif.C21_sees",
    "Verif.C21_sees_instance",
    "Verif.C21_construction",
    "Verif.C26_tuple_is_false",
    "Verif.C21_items_is_false",
    "Verif.C21_tuple_key"
   ],
   "note": "Every decider, map, object and method, for a union that is asked right after it was told its object. False for unions as array items that contain objects of the class: the items after such an object are decided by that object (C21_items_is_false). Chosen types whose size cannot be read (a tuple holding Self or Condition) are excluded: they fail in the code (C26_tuple_is_false). obj.unpack shows the decider the old attributes as well (C21_sees_instance)."
  },
  {
   "property": "C22",
   "status": "partial",
   "theorems": [
    "Verif.C22_unpack",
    "Verif.C22_leaf",
    "Verif.C22_basic",
    "Verif.C22_unhashable",
    "Verif.C21_pack",
    "Verif.C21_no_type",
    "Verif.C22_full_is_false",
    "Verif.C22_methods_differ_is_false",
    "Verif.C22_container_is_false"
   ],
   "note": "Every map, source and data: for basic types, strings of every kind, text and arrays of basic types as read-ahead type (C22_leaf), and for any other whose size is the number of bytes it used (C22_unpack). False in the code for char[NET] cut short in a stream, and for classes and arrays: what they read is no dictionary key, so such a union can never be unpacked."
  },
  {
   "property": "C23",
   "status": "partial",
   "theorems": [
    "Verif.C23_false",
    "Verif.C23_true_partial",
    "Verif.C23_other",
    "Verif.C23_unhashable",
    "Verif.C23_array_is_false",
    "Verif.C23_self_is_false"
   ],
   "note": "False conditions for every type and method. True conditions for every type that does not need the object; for arrays, tuples, unions and Self the code fails (C23_array_is_false, C23_self_is_false)."
  },
  {
   "property": "C25",
   "status": "partial",
   "theorems": [
    "Verif.C25_pack",
    "Verif.C25_unpack",
    "Verif.C25_byte_order",
    "Verif.C25_in_class",
    "Verif.C25_full_is_false"
   ],
   "note": "Every inner and outer class and object, except inner classes whose serializer has no size (a single field with Condition), where the code fails (C25_full_is_false)."
  },
  {
   "property": "C34",
   "status": "partial",
   "theorems": [
    "Verif.C34_order",
    "Verif.C34_null_left",
    "Verif.C34_null_right",
    "Verif.C34_null_compound",
    "Verif.C34_pack_partial",
    "Verif.C34_pack_into_partial",
    "Verif.C34_pack_write_partial",
    "Verif.C34_unpack_partial",
    "Verif.C34_grouping_partial",
    "Verif.C34_fields",
    "Verif.C34_class",
    "Verif.C34_class_clean",
    "Verif.C34_grouping_is_false",
    "Verif.C34_native_is_false",
    "Verif.C34_byte_order_is_false"
   ],
   "note": "Order, nesting and the identity: every bracketing. Behaviour: every clean sum, which includes every field list of one byte order without alignment (C34_fields), and every class as made by a class statement (C34_class, in every byte order). False in the code for other groupings (fold_overlaps), for native alignment, and for byte orders with actions."
  },
  {
   "property": "C29",
   "status": "proved",
   "theorems": [
    "Verif.C29_init",
    "Verif.C29_init_wrong_count",
    "Verif.C29_unpack",
    "Verif.C29_unpack_wrong_count",
    "Verif.C29_create_unpack",
    "Verif.C29_create_unpack_wrong_count"
   ],
   "note": ""
  },
  {
   "property": "C30",
   "status": "partial",
   "theorems": [
    "Verif.C30_eq",
    "Verif.C30_different_class",
    "Verif.C30_not_eq",
    "Verif.C30_equivalence",
    "Verif.C30_value_laws",
    "Verif.C30_pack_partial",
    "Verif.C30_byte_order_is_false",
    "Verif.C30_decider_is_false",
    "Verif.C30_missing"
   ],
   "note": "Equality is proved to be same class plus equal serialized attributes, and an equivalence. That equal objects pack alike is proved for identical attribute values, equal instance byte order and deciders that look at serialized attributes; without the last two it is false. More on this under C77."
  },
  {
   "property": "C12",
   "status": "partial",
   "theorems": [
    "Verif.C12_with_byte_order_partial",
    "Verif.C12_host_independent",
    "Verif.C12_host_independent_write",
    "Verif.C12_host_independent_into",
    "Verif.C12_host_independent_read",
    "Verif.C12_host_independent_read_into",
    "Verif.C12_tuple_is_false",
    "Verif.C12_unicode_is_false",
    "Verif.C12_union_is_false",
    "Verif.C12_net_is_false",
    "Verif.C12_dynamic_char_is_false"
   ],
   "note": "Proved for basic fields, arrays, headers, conditions and compounds; with fixed byte orders all packing and reading methods are proved to do the same on machines of either byte order; false in the code for tuples, text, unions, NET lengths; length-prefixed strings in a class with its own byte order cannot be packed."
  },
  {
   "property": "C36",
   "status": "partial",
   "theorems": [
    "Verif.C36_struct_with_byte_order",
    "Verif.C36_struct_last_wins",
    "Verif.C36_last_wins",
    "Verif.C36_again",
    "Verif.C36_keeps",
    "Verif.C36_instance",
    "Verif.C36_instance_orders",
    "Verif.C36_documented",
    "Verif.C36_no_object",
    "Verif.C36_missing",
    "Verif.C36_other_attributes_lost"
   ],
   "note": "Last byte order wins for every serializer. Instances keep class and serialized attributes; the bytes follow the new order except in the parts listed under C12."
  },
  {
   "property": "C39",
   "status": "proved",
   "theorems": [
    "Verif.C39_layers",
    "Verif.C39_innermost",
    "Verif.C39_condition",
    "Verif.C39_serialize_as",
    "Verif.C39_union",
    "Verif.C39_not_a_field",
    "Verif.C39_unindexed",
    "Verif.C39_annotated_metadata"
   ],
   "note": "transform of typing hints is modelled with fuel for the recursion through tuple and union arguments; forward references are resolved before (evalHint)."
  },
  {
   "property": "C24",
   "status": "partial",
   "theorems": [
    "Verif.C24_sum_partial",
    "Verif.C24_fields_partial",
    "Verif.C24_noticed",
    "Verif.C24_fields_to_end_partial",
    "Verif.C24_array_items",
    "Verif.C24_default_is_false"
   ],
   "note": "Every sum, field list and array item, for read-to-end strings directly or inside text, tuples, union options, Condition and nested classes. A read-to-end default of a union is overlooked by the code (C24_default_is_false)."
  },
  {
   "property": "C27",
   "status": "partial",
   "theorems": [
    "Verif.C27_attrs",
    "Verif.C27_serializer",
    "Verif.C27_chain",
    "Verif.C27_redefined",
    "Verif.C27_same_order",
    "Verif.C27_new_last",
    "Verif.C27_only_new",
    "Verif.C27_self_is_false",
    "Verif.C27_generic_redefinition_is_false"
   ],
   "note": "Proved for every chain of class statements; false for a field called self and for attributes redefined in a class derived from a specialized generic class, as in the code."
  },
  {
   "property": "C28",
   "status": "partial",
   "theorems": [
    "Verif.C28_every_pad",
    "Verif.C28_inherited_pad_partial",
    "Verif.C28_not_attr",
    "Verif.C28_place",
    "Verif.C28_zeros",
    "Verif.C28_ignored_partial",
    "Verif.C28_from_partial",
    "Verif.C28_read_partial",
    "Verif.C28_replaced_partial",
    "Verif.C28_replaced_from_partial",
    "Verif.C28_replaced_read_partial",
    "Verif.C28_pad0_is_false",
    "Verif.C28_postponed_is_false",
    "Verif.C28_peeked_is_false"
   ],
   "note": "Names, attributes, place and zeros for every arrangement of pads in a class; ignored by all three ways of reading, for programs without peeking and read-to-end strings (at an offset and in streams: without length-prefixed strings, at an offset also without terminated ones). C28_replaced_partial: for create_unpack of documented classes, with strings of any kind behind the pad and all but read-to-end ones in front of it. False for pad[0], for postponed annotations, and for a lookahead union that peeks at the pad."
  },
  {
   "property": "C32",
   "status": "partial",
   "theorems": [
    "Verif.C32_conflict",
    "Verif.C32_two_bases",
    "Verif.C32_agreement",
    "Verif.C32_override",
    "Verif.C32_new_order_partial",
    "Verif.C32_inherited",
    "Verif.C32_tuple_is_false"
   ],
   "note": "ValueError, TypeError and the effect of OVERRIDE for every class statement; the new byte order reaches everything except what with_byte_order leaves out (tuples, text, unions, NET), where the statement is false."
  },
  {
   "property": "C31",
   "status": "partial",
   "theorems": [
    "Verif.C31_substitution",
    "Verif.C31_all_variables",
    "Verif.C31_two_steps",
    "Verif.C31_left",
    "Verif.C31_no_variables",
    "Verif.C31_generic_class",
    "Verif.C31_class",
    "Verif.C31_documented",
    "Verif.C31_indexing",
    "Verif.C31_waiting",
    "Verif.C31_annotated",
    "Verif.C31_annotated_plain",
    "Verif.C31_bases",
    "Verif.C31_same_variable_is_false",
    "Verif.C31_given_argument_is_false",
    "Verif.C31_tuple_in_tuple_is_false",
    "Verif.C31_nested_generic_is_false",
    "Verif.C31_array_item_is_false",
    "Verif.C31_base_variables_is_false",
    "Verif.C31_byte_order_is_false"
   ],
   "note": "Resolving in steps, the variables left and the absence of variables are proved for every alias tree and every map to closed types. Substitution is proved for type expressions with variables where the library makes aliases of them, also for open replacement types with other variables. A class specialized in a class statement has the documented format of the generic one with the types in place (C31_documented), so the theorems about documented classes apply to it. The property is false for a replacement containing the variable itself, Foo[T, uint8], tuples in tuples, Foo[Bar[T]], items char[T] of fixed arrays, classes that inherit their variables, and generic classes with a byte order; each with a concrete witness."
  },
  {
   "property": "C40",
   "status": "partial",
   "theorems": [
    "Verif.Threads.C40_partial",
    "Verif.Threads.C40_nested_partial",
    "Verif.Threads.C40_finishes",
    "Verif.Threads.C40_other_class_is_false",
    "Verif.Threads.C40_sized_array_is_false",
    "Verif.Threads.C40_offset_is_false",
    "Verif.Threads.C40_union_is_false",
    "Verif.Threads.C40_self_is_false",
    "Verif.Threads.C40_is_false"
   ],
   "note": "Any number of threads, any schedule of single attribute reads and writes. Proved for classes without unions and without a size in array headers; for methods on buffers, with fields of varying size (and nested classes) only last; for unpacking, Self only as a field. When all threads unpack, nested classes of fixed size may come anywhere (C40_nested_partial; false when another thread packs an object of another class in the place of the nested one). False otherwise, with concrete schedules for each kind."
  },
  {
   "property": "C41",
   "status": "partial",
   "theorems": [
    "Verif.Zips.C41_tuples",
    "Verif.Zips.C41_not_strict",
    "Verif.Zips.C41_equal",
    "Verif.Zips.C41_raises",
    "Verif.Zips.C41_partial",
    "Verif.Zips.C41_two",
    "Verif.Zips.C41_unpack",
    "Verif.Zips.C41_unpack_only",
    "Verif.Zips.C41_create",
    "Verif.Zips.C41_is_false",
    "Verif.Zips.C41_stale_is_false",
    "Verif.Zips.C41_none",
    "Verif.Zips.C41_no_object",
    "Verif.Zips.C41_no_class"
   ],
   "note": "The Python 3.9 version of zips: tuples and the exact condition for ValueError for any number of iterables. False when only earlier iterables are longer, by one; then unpacking into an object leaves stale attributes on 3.9."
  },
  {
   "property": "C42",
   "status": "partial",
   "theorems": [
    "Verif.C42_nonneg",
    "Verif.C42_nonneg_pack_into",
    "Verif.C42_unpack_partial",
    "Verif.C42_obj_unpack_partial",
    "Verif.C42_pack_into_partial",
    "Verif.C42_wrap_is_false",
    "Verif.C42_pack_into_wrap_is_false",
    "Verif.C42_read_to_end_is_false",
    "Verif.C42_terminated_is_false",
    "Verif.C42_pack_into_read_to_end_is_false",
    "Verif.C42_unterminated_is_false",
    "Verif.C42_size_is_false",
    "Verif.C42_outside",
    "Verif.C42_outside_pack_into",
    "Verif.C42_terminated"
   ],
   "note": "Proved when the operation at the offset counted from the start succeeds, for programs without terminated and read-to-end strings (packing: without read-to-end strings). False otherwise: data that reaches past the end wraps to the start of the buffer, and both kinds of strings use the negative number as it is. For offsets that are not negative the integer code is proved equal to the code of the other properties."
  },
  {
   "property": "C43",
   "status": "proved",
   "theorems": [
    "Verif.C43_bool_pack",
    "Verif.C43_bool_unpack",
    "Verif.C43_bool_round_trip",
    "Verif.C43_double_pack",
    "Verif.C43_double_unpack",
    "Verif.C43_single_pack",
    "Verif.C43_single_unpack",
    "Verif.C43_half_pack",
    "Verif.C43_half_unpack",
    "Verif.C43_not_a_number",
    "Verif.C43_int_values",
    "Verif.C43_pointer",
    "Verif.C43_native_only",
    "Verif.C43_pointer_round_trip_is_false"
   ],
   "note": "Rounding to binary32 and binary16 and the conversion of integers to floats are functions of the platform about which nothing is assumed; so that a float32 survives is only as good as these. The pointer format 'P' is included, for which negative numbers do not survive."
  },
  {
   "property": "C44",
   "status": "proved",
   "theorems": [
    "Verif.C44_hint",
    "Verif.C44_hint_zero",
    "Verif.C44_char_pack",
    "Verif.C44_char_unpack",
    "Verif.C44_char_round_trip",
    "Verif.C44_pascal_pack",
    "Verif.C44_pascal_unpack",
    "Verif.C44_pascal_round_trip",
    "Verif.C44_byte"
   ],
   "note": "Stated for every serializer with one string item, which C44_hint shows char[n] and pascal[n] to be in every byte order."
  },
  {
   "property": "C45",
   "status": "partial",
   "theorems": [
    "Verif.C45_success",
    "Verif.C45_fields",
    "Verif.C45_one_unit_partial",
    "Verif.C45_no_object",
    "Verif.C45_full_is_false"
   ],
   "note": "False as stated: fields read before the error keep their new values (C45_full_is_false). Proved for all classes: some number of the first fields are assigned and nothing else changes, whatever the outcome; unchanged on failure when all fields are in one serializer; and the object of a call that returns is that of Obj.unpack."
  },
  {
   "property": "C46",
   "status": "partial",
   "theorems": [
    "Verif.C46_bytes",
    "Verif.C46_buffer_partial",
    "Verif.C46_offset_partial",
    "Verif.C46_stream",
    "Verif.C46_plain",
    "Verif.C46_rest_partial",
    "Verif.C46_view",
    "Verif.C46_unicode_is_false",
    "Verif.C46_key_is_false",
    "Verif.C46_grow_is_false",
    "Verif.C46_tuple_key"
   ],
   "note": "False as stated for strings that are slices of the buffer (char[math.inf], and char[NET] without an offset): they have the type of the buffer, cannot be decoded, and are not keys. Proved for all other programs; with a read-to-end string last, the outcome differs in the type of that value only. pack_into a view is proved for all programs to be pack_into a bytearray, except for a ValueError where the bytearray would grow. Conditions returning slices and codecs accepting bytearrays are not modelled."
  },
  {
   "property": "C47",
   "status": "partial",
   "theorems": [
    "Verif.C47_untouched",
    "Verif.C47_depends",
    "Verif.C47_elsewhere",
    "Verif.C47_threads",
    "Verif.C47_copy",
    "Verif.C47_copy_partial",
    "Verif.C47_orders",
    "Verif.C47_stale_is_false",
    "Verif.C47_copy_is_false",
    "Verif.C47_shared_is_false"
   ],
   "note": "Proved for all programs, earlier calls and schedules, for reading with Self under the condition that partial objects left on the serializers used are of classes the object is made of (needed: C47_stale_is_false). That a byte order of its own separates an object from its class is proved where with_byte_order is implemented; unions, tuples, unicode and NET strings are shared with the class (C47_copy_is_false). Unrelated classes with a field char[b'\\0'] share its serializer because of the cache, so threads using different classes can disturb each other (C47_shared_is_false)."
  },
  {
   "property": "C48",
   "status": "partial",
   "theorems": [
    "Verif.C48_pack",
    "Verif.C48_pack_into",
    "Verif.C48_pack_write",
    "Verif.C48_unpack",
    "Verif.C48_round_trip",
    "Verif.C48_type",
    "Verif.C48_last_pack",
    "Verif.C48_last_pack_plain",
    "Verif.C48_last_unpack",
    "Verif.C48_last_unpack_plain",
    "Verif.C48_write_type",
    "Verif.C48_into_values",
    "Verif.C48_no_object",
    "Verif.C48_values_is_false",
    "Verif.C48_into_item"
   ],
   "note": "Proved but for the last sentence, which is false for values with a len(): pack of a class with this one field returns a list or str unchanged, and pack_into writes a list of small numbers, where pack_write raises TypeError (C48_values_is_false). C48_into_values: what pack_into accepts and writes, for all values. That a value without len() raises TypeError is proved for all three."
  },
  {
   "property": "C49",
   "status": "partial",
   "theorems": [
    "Verif.C49_injective_partial",
    "Verif.C49_prefix_partial",
    "Verif.C49_stream_partial",
    "Verif.C49_buffer_partial",
    "Verif.C49_full_is_false",
    "Verif.C49_prefix_is_false"
   ],
   "note": "For the representable objects of C01 (Spec/RoundTrip.lean), lists of any length. False for others: char[4] fills up with NULs, so different strings have the same bytes."
  },
  {
   "property": "C50",
   "status": "partial",
   "theorems": [
    "Verif.C50_buffer_partial",
    "Verif.C50_stream_partial",
    "Verif.C50_from_partial",
    "Verif.C50_in_place_partial",
    "Verif.C50_rewrite_partial",
    "Verif.C50_counted_partial",
    "Verif.C50_full_is_false",
    "Verif.C50_pad_is_false",
    "Verif.C50_pascal_is_false",
    "Verif.C50_text_is_false",
    "Verif.C50_net_is_false",
    "Verif.C50_empty_is_false",
    "Verif.C50_cut_is_false",
    "Verif.C50_stream_is_false",
    "Verif.C50_lookahead_is_false"
   ],
   "note": "For all programs of exact classes, byte strings and states: the object unpacked is packed to exactly the bytes used, so rewriting in place changes nothing. Excluded types are those for which it is false (booleans, padding, pascal strings, NUL-ended text, NET markers, empty or cut counted strings, lookahead unions; each with a witness), and float16/float32 and transformed values, about which nothing is assumed."
  },
  {
   "property": "C51",
   "status": "partial",
   "theorems": [
    "Verif.C51_str",
    "Verif.C51_repr",
    "Verif.C51_fields_only",
    "Verif.C51_missing",
    "Verif.C51_decimal",
    "Verif.C51_literal",
    "Verif.C51_quotes",
    "Verif.C51_bytes",
    "Verif.C51_sequence",
    "Verif.C51_total_partial",
    "Verif.C51_injective_partial",
    "Verif.C51_repr_injective_partial",
    "Verif.C51_full_is_false",
    "Verif.C51_type_is_false",
    "Verif.C51_equal_is_false",
    "Verif.C51_total_is_false"
   ],
   "note": "The form of the texts is proved for all objects. Telling objects apart by their text is proved for all values without text fields (for these it is false, with witnesses), floats and user types, whose repr is not modelled. Classes that override __str__/__repr__ are not modelled."
  },
  {
   "property": "C52",
   "status": "partial",
   "theorems": [
    "Verif.C52_pack_partial",
    "Verif.C52_unpack_partial",
    "Verif.C52_read_partial",
    "Verif.C52_from_partial",
    "Verif.C52_generator_is_false",
    "Verif.C52_counted_is_false",
    "Verif.C52_list_is_false",
    "Verif.C52_tuple_is_false",
    "Verif.C52_sized_is_false",
    "Verif.C52_union_is_false",
    "Verif.C52_self_is_false",
    "Verif.C52_tuple_of_self_is_false",
    "Verif.C52_condition_is_false",
    "Verif.C52_only_condition_is_false",
    "Verif.C52_cls_is_false",
    "Verif.C52_decider_is_false",
    "Verif.C52_ahead_is_false"
   ],
   "note": "Bytes and values read back are proved against a specification that mentions no serializer, for every class statement made of the listed hints (integers, bool8, the float types, pascal strings, the kinds of char and unicode, arrays, tuples, classes, Self, both kinds of unions, conditions, pads, and types of one's own with SerializeAs, with or without a factory) outside the cases that are false, each with a witness. Unions look ahead for integers or char[n] (the example of the README is Props/FormatAhead.lean; that of SerializeAs is Props/FormatVia.lean). Not among the formats: other look-ahead types, and types of one's own whose constructor or factory raises."
  },
  {
   "property": "C53",
   "status": "proved",
   "theorems": [
    "Verif.C53_char",
    "Verif.C53_unicode",
    "Verif.C53_counted",
    "Verif.C53_header",
    "Verif.C53_array_refused",
    "Verif.C53_array",
    "Verif.C53_serialize_as",
    "Verif.C53_with_factory"
   ],
   "note": "For all arguments that the model's hints cover. Numbers of items too large for the struct module, unhashable arguments and the wrong number of arguments are not modelled. What kind of array is made is C20_hint_counted and C20_hint_fixed."
  },
  {
   "property": "C54",
   "status": "partial",
   "theorems": [
    "Verif.Depr.C54_call_partial",
    "Verif.Depr.C54_given",
    "Verif.Depr.C54_names",
    "Verif.Depr.C54_doc",
    "Verif.Depr.C54_later",
    "Verif.Depr.C54_shared_is_false",
    "Verif.Depr.C54_unnamed_is_false",
    "Verif.Depr.C54_link_is_false"
   ],
   "note": "Proved for the first function of a decorator and for decorators with x given, with the link that the code makes. False in the code for the rest: the second function of a decorator is named like the first one, callables without __qualname__ are named like a function of structured.utils, and issue links lead to a page that does not exist; each is proved with a witness. What a function does is a parameter of the model; exceptions raised while an object is turned into text are not modelled."
  },
  {
   "property": "C55",
   "status": "proved",
   "theorems": [
    "Verif.C55_pack",
    "Verif.C55_pack_write",
    "Verif.C55_pack_into",
    "Verif.C55_create",
    "Verif.C55_unpack",
    "Verif.C55_size",
    "Verif.C55_format",
    "Verif.C55_rule",
    "Verif.C55_where"
   ],
   "note": "Fields have at least one byte (char[0] and pad[0] are no fields at all), and attributes are those declared; an object without one of them cannot be packed (C30). What the bytes of one value are is the subject of C13, C43 and C44. In classes with other fields between, places are counted from the start of each run of neighbouring basic fields, which C34 describes."
  },
  {
   "property": "C56",
   "status": "partial",
   "theorems": [
    "Verif.C56_unpack_partial",
    "Verif.C56_unpack_limit_partial",
    "Verif.C56_size_partial",
    "Verif.C56_from_partial",
    "Verif.C56_read_partial",
    "Verif.C56_read_limit_partial",
    "Verif.C56_regular_partial",
    "Verif.C56_attrs",
    "Verif.C56_generator_is_false",
    "Verif.C56_cls_is_false",
    "Verif.C56_net_is_false",
    "Verif.C56_stream_is_false",
    "Verif.C56_offset_is_false"
   ],
   "note": "Proved for create_unpack for all documented programs (Fmt.good as in C52) and all bytes; False in the code for tuples of several items that are not all basic (they are read as generators), Self in a class with a field cls, .NET strings of 128 bytes and more on big-endian machines, empty strings with a length read from streams or at an offset, and terminated strings at an offset; these are excluded, with witnesses. Programs are settled (C05): no array keeps the partial object of another one that is in use."
  },
  {
   "property": "C57",
   "status": "partial",
   "theorems": [
    "Verif.C57_raises_partial",
    "Verif.C57_from_partial",
    "Verif.C57_read_partial",
    "Verif.C57_kinds",
    "Verif.C57_basic",
    "Verif.C57_rest",
    "Verif.C57_stream_is_false",
    "Verif.C57_cls_is_false"
   ],
   "note": "Proved for all regular documented programs (ClassDoc.regular: not the formats where C56 is false) and all bytes. False in the code for empty texts with a length on streams (IndexError) and for Self in a class with a field cls (AttributeError), with witnesses."
  },
  {
   "property": "C58",
   "status": "proved",
   "theorems": [
    "Verif.C58_pack",
    "Verif.C58_pack_into",
    "Verif.C58_pack_write",
    "Verif.C58_not_a_sequence"
   ],
   "note": "For all serializers of arrays and tuples and all states. Values of user types have the items of what they wrap; generators count as values without items (DESIGN.md)."
  },
  {
   "property": "C59",
   "status": "partial",
   "theorems": [
    "Verif.C59_source",
    "Verif.C59_call",
    "Verif.C59_wrong_arguments",
    "Verif.C59_union_unnamed",
    "Verif.C59_name_is_false",
    "Verif.C59_self_is_false",
    "Verif.C59_post_init_is_false"
   ],
   "note": "Against a reader and an interpreter of the part of Python that the text uses (Spec/PyText.lean), proved for all fields and annotations. False in the code, with witnesses, for types whose __name__ is not an identifier (the text is no Python), a field called self (it is dropped) and a field called __post_init__ (its value is called)."
  },
  {
   "property": "C60",
   "status": "partial",
   "theorems": [
    "Verif.C60_partial",
    "Verif.C60_errors",
    "Verif.C60_float",
    "Verif.C60_unhashable",
    "Verif.C60_infinity",
    "Verif.C60_float_is_false"
   ],
   "note": "Proved for all arguments that are not floats equal to an integer, which also justifies the identities that the model of type hints takes as given (HintCtx.ident). False for those: char[4.0] raises TypeError unless char[4] was used before; C60_float says exactly when. Item types of arrays are compared as hints; other number types are not modelled."
  },
  {
   "property": "C61",
   "status": "partial",
   "theorems": [
    "Verif.C61_partial",
    "Verif.C61_accepts",
    "Verif.C61_field",
    "Verif.C61_integer",
    "Verif.C61_cut_is_false",
    "Verif.C61_terminator_is_false",
    "Verif.C61_extra_is_false",
    "Verif.C61_truth_is_false",
    "Verif.C61_items_is_false",
    "Verif.C61_class_is_false"
   ],
   "note": "The converse of C52: what pack returned is what Fmt.store says, and C61_accepts shows that what Fmt.store says is packed (without own byte orders, tuples of the right length). False: that the values are of the types of the fields. Strings of a fixed size are cut, terminated strings may contain the terminator, tuples of several parts drop further items, booleans take anything, arrays take byte strings, and an object of another class is packed in its own format. Formats excluded by Fmt.good in the default byte order are missing, as are programs in which nested arrays share their serializers (Calm)."
  },
  {
   "property": "C62",
   "status": "partial",
   "theorems": [
    "Verif.C62_partial",
    "Verif.C62_kinds",
    "Verif.C62_missing",
    "Verif.C62_integers",
    "Verif.C62_empty_is_false",
    "Verif.C62_order_is_false",
    "Verif.C62_net_is_false",
    "Verif.C62_tuple_is_false"
   ],
   "note": "Proved for all values: bytes or exception are those of Spec/FormatPut.lean, for every depth of the call stack that suffices. False: that values that fit are always packed (empty strings with a length, strings with a length in a class with a byte order, empty .NET strings), and that a tuple of the wrong length is always an error. Missing: formats excluded by Fmt.good in the default byte order, programs in which nested arrays share their serializers (Calm)."
  },
  {
   "property": "C63",
   "status": "partial",
   "theorems": [
    "Verif.C63_partial",
    "Verif.C63_decorate",
    "Verif.C63_init",
    "Verif.C63_arguments",
    "Verif.C63_fields",
    "Verif.C63_create",
    "Verif.C63_create_ok",
    "Verif.C63_post_init",
    "Verif.C63_eq",
    "Verif.C63_pad",
    "Verif.C63_slots_partial",
    "Verif.C63_slots_byte_order",
    "Verif.C63_order_is_false",
    "Verif.C63_missing_is_false",
    "Verif.C63_derived_is_false",
    "Verif.C63_pad_is_false",
    "Verif.C63_slots_is_false"
   ],
   "note": "Proved when the serialized fields come first among the parameters of __init__ and there are no pads. False in the code otherwise: values are passed by position, so a field before the serialized ones gets the value of the next one or TypeError is raised; the names given to pads make the text of __init__ a SyntaxError; slots=True makes the class again without its byte order. The dataclasses module of Python is modelled, not verified."
  },
  {
   "property": "C64",
   "status": "partial",
   "theorems": [
    "Verif.C64_partial",
    "Verif.C64_pack",
    "Verif.C64_pack_into",
    "Verif.C64_pack_write",
    "Verif.C64_unpack",
    "Verif.C64_eq",
    "Verif.C64_init",
    "Verif.C64_create",
    "Verif.C64_with_byte_order",
    "Verif.C64_nested",
    "Verif.C64_no_object",
    "Verif.C64_no_class",
    "Verif.C64_attrs_errors",
    "Verif.C64_proxy_names",
    "Verif.C64_method_is_false",
    "Verif.C64_serializer_is_false",
    "Verif.C64_attrs_is_false",
    "Verif.C64_post_init_is_false",
    "Verif.C64_proxy_is_false",
    "Verif.C64_byte_order_is_false",
    "Verif.C64_same_order_is_false",
    "Verif.C64_order_is_false"
   ],
   "note": "Proved: each operation is the one of the class unless a field has one of the few names the operation looks up on the instance; the names are listed for each. False in the code for these names: a field called like a method takes the place of the method, serializer and _serializer make packing and unpacking impossible, attrs makes unpacking and == raise TypeError, byte_order is overwritten by with_byte_order, __post_init__ makes construction impossible, _Proxy__attrs makes creation raise TypeError, and attrs, serializer, byte_order and _attrgetter come before the other fields whatever the order in the class body. Missing: fields called attrs whose value is a sequence, names with a meaning in Python itself such as __class__."
  },
  {
   "property": "C65",
   "status": "partial",
   "theorems": [
    "Verif.C65_partial",
    "Verif.C65_object_partial",
    "Verif.C65_into_object_partial",
    "Verif.C65_none_partial",
    "Verif.C65_none_into_object_partial",
    "Verif.C65_large",
    "Verif.C65_complete",
    "Verif.C65_no_object",
    "Verif.C65_terminated_is_false",
    "Verif.C65_net_is_false",
    "Verif.C65_none_net_is_false",
    "Verif.C65_none_rest_is_false",
    "Verif.C65_none_rest"
   ],
   "note": "Proved for all classes without terminated and .NET strings, whatever the stream returns; with terminated strings if the stream returns at least 256 bytes or all it was asked for, with .NET strings 32767. False otherwise: a chunk without the terminator is counted as 256 bytes whatever its length (C65_terminated_is_false), and the length of what was read of a .NET string is not looked at (C65_net_is_false). Where read returns None because there is no data yet, classes without .NET and read-to-end strings raise; a .NET string becomes None and a read-to-end string is cut (C65_none_net_is_false, C65_none_rest_is_false)."
  },
  {
   "property": "C66",
   "status": "partial",
   "theorems": [
    "Verif.C66_partial",
    "Verif.C66_into_object_partial",
    "Verif.C66_buffered_partial",
    "Verif.C66_pipe_partial",
    "Verif.C66_none_partial",
    "Verif.C66_any",
    "Verif.C66_any_object",
    "Verif.C66_strings",
    "Verif.C66_lookahead",
    "Verif.C66_is_false"
   ],
   "note": "Proved for all programs of classes without terminated strings, .NET strings and unions that read ahead, together with reads that return less than asked for (C65). False for these three, which call tell or seek: proved that they always raise, and that every class has the same outcome or raises what tell and seek raise, so no wrong object is returned."
  },
  {
   "property": "C67",
   "status": "partial",
   "theorems": [
    "Verif.C67_partial",
    "Verif.C67_object_partial",
    "Verif.C67_forward_partial",
    "Verif.C67_solid_partial",
    "Verif.C67_is_false"
   ],
   "note": "Proved for all programs whose counted arrays have items that always take at least one byte, and whose unions read ahead formats; fixed arrays, defaults and callbacks give the constant D. False in full: objects of a class without fields take no bytes, and four bytes give a list of 4294967295 of them."
  },
  {
   "property": "C68",
   "status": "partial",
   "theorems": [
    "Verif.C68_partial",
    "Verif.C68_pieces",
    "Verif.C68_moved_partial",
    "Verif.C68_not_packed",
    "Verif.C68_complete",
    "Verif.C68_first",
    "Verif.C68_is_false",
    "Verif.C68_misread_is_false"
   ],
   "note": "Proved for all classes and objects: what the stream is given, whatever it does with it, and that nothing else is done after a call that raises; with streams that take all or raise, the property in full. False otherwise: the number that write returns is not looked at, so a stream that takes part of the data gets the next field right behind it and nothing is raised. C68_moved_partial: the position of the stream tells whether all was taken. Streams whose write returns None or blocks are streams that take 0 bytes."
  },
  {
   "property": "C69",
   "status": "partial",
   "theorems": [
    "Verif.C69_partial",
    "Verif.C69_made",
    "Verif.C69_fields",
    "Verif.C69_is_false",
    "Verif.C69_copy",
    "Verif.C69_copy_same",
    "Verif.C69_copy_is_false",
    "Verif.C69_again",
    "Verif.C69_mutable"
   ],
   "note": "Proved for all classes without __post_init__ whose Condition defaults are immutable. False otherwise: SkipSerializer returns the default objects themselves, so a mutable default (a list for an array, an instance for a nested class) is one object in all unpacked objects. C69_made needs no assumption about defaults: everything mutable in an unpacked object is new or such a default. What __post_init__ and deciders do with the objects is not followed, and objects made by actions of format types count as immutable. C69_copy: objects made by with_byte_order hold the attribute values of the original themselves, so they share its lists and instances."
  },
  {
   "property": "C70",
   "status": "partial",
   "theorems": [
    "Verif.C70_pack_partial",
    "Verif.C70_values_partial",
    "Verif.C70_unpack_partial",
    "Verif.C70_short_partial",
    "Verif.C70_from_partial",
    "Verif.C70_read_partial",
    "Verif.C70_exact_partial",
    "Verif.C70_class_is_false",
    "Verif.C70_order_is_false"
   ],
   "note": "Packing: proved for objects with the documented types; for any other values that are packed the limits hold with nothing known of nested objects and in the byte order of the object. False for nested objects of another class and for objects with a byte order of their own, which lose the alignment. Unpacking: proved for all bytes, for regular formats (as in C57); at offsets without terminated strings and strings with a length, on streams without strings with a length."
  },
  {
   "property": "C71",
   "status": "partial",
   "theorems": [
    "Verif.C71_documented",
    "Verif.C71_formats",
    "Verif.C71_unpack_partial",
    "Verif.C71_raises_partial",
    "Verif.C71_from_partial",
    "Verif.C71_read_partial",
    "Verif.C71_pack_partial",
    "Verif.C71_header_partial",
    "Verif.C71_self_is_false",
    "Verif.C71_condition_is_false",
    "Verif.C71_order_is_false",
    "Verif.C71_again_is_false"
   ],
   "note": "Proved for statements that declare new names only, in the byte order of the base class, where the fields of the base depend on nothing but each other. False for Self in the base class (nested objects are of the derived class), for conditions and deciders that look at attributes of the derived class, for another byte order (OVERRIDE) and for fields that are declared again. Unpacking as far as C56 goes (offsets without terminated strings and strings with a length, streams without strings with a length), packing as far as C62 goes."
  },
  {
   "property": "C72",
   "status": "partial",
   "theorems": [
    "Verif.C72_partial",
    "Verif.C72_bad_partial",
    "Verif.C72_unpack_partial",
    "Verif.C72_from_partial",
    "Verif.C72_read_partial",
    "Verif.C72_condition_is_false",
    "Verif.C72_looked_at_is_false"
   ],
   "note": "Proved for fields that no other field looks at, where the other fields have no Self; false otherwise (a decider or condition chooses other types). Packing as far as C62 goes. C72_unpack_partial is the other direction: replacing the bytes of a field of a basic type in the data changes only that attribute, as far as C56 goes and without read-to-end strings and unions that read ahead in front of the field."
  },
  {
   "property": "C73",
   "status": "partial",
   "theorems": [
    "Verif.C73_object_partial",
    "Verif.C73_class_partial",
    "Verif.C73_size",
    "Verif.C73_unpack_partial",
    "Verif.C73_from_partial",
    "Verif.C73_read_partial",
    "Verif.C73_alignment_is_false",
    "Verif.C73_strings_is_false"
   ],
   "note": "Proved for the byte orders without alignment, as far as C62 goes, for one object in two byte orders and for two classes with the same fields; for unpacking from buffers, at offsets and from streams as far as C56 and C03 go. False for the default and native byte orders: they have pad bytes, and strings with a length in front can be packed in the default byte order only."
  },
  {
   "property": "C74",
   "status": "partial",
   "theorems": [
    "Verif.C74_unpack_partial",
    "Verif.C74_from_partial",
    "Verif.C74_read_partial",
    "Verif.C74_pack_partial",
    "Verif.C74_default_is_false"
   ],
   "note": "Proved as far as C56 and C62 go, for new keys behind the old ones. False for unions that had a default before: old data may be read by it."
  },
  {
   "property": "C75",
   "status": "partial",
   "theorems": [
    "Verif.C75_formats",
    "Verif.C75_unpack_partial",
    "Verif.C75_raises_partial",
    "Verif.C75_from_partial",
    "Verif.C75_read_partial",
    "Verif.C75_pack_partial",
    "Verif.C75_self_is_false",
    "Verif.C75_method_is_false"
   ],
   "note": "Proved as far as C56 and C62 go, for classes without Self (whose objects are of different classes). False for a field called self, which is no attribute, and for names of the library's own methods (C64)."
  },
  {
   "property": "C76",
   "status": "partial",
   "theorems": [
    "Verif.C76_unpack_partial",
    "Verif.C76_from_partial",
    "Verif.C76_read_partial",
    "Verif.C76_depth",
    "Verif.C76_chain_is_false"
   ],
   "note": "Proved for all regular documented programs (as in C57) whose classes are in layers (Spec/Grounded.lean); at offsets and in streams with the limits of C03. False for a class that begins with an object of its own kind: RecursionError for all data (C76_chain_is_false)."
  },
  {
   "property": "C77",
   "status": "partial",
   "theorems": [
    "Verif.C77_twins_partial",
    "Verif.C77_equal_partial",
    "Verif.C77_whole_is_false",
    "Verif.C77_zeros_is_false",
    "Verif.C77_byte_order_is_false",
    "Verif.C77_user_is_false"
   ],
   "note": "Proved for all documented programs whose deciders and encoders do not tell apart values that differ as Spec/Twins.lean says, with the limits of C62. False in the code for floats that are whole numbers (1.0 equals 1 and cannot be packed in an integer field), for the two zeros, for objects with different byte orders of their own (== does not look at them) and for values with an == of their own."
  },
  {
   "property": "C78",
   "status": "partial",
   "theorems": [
    "Verif.C78_unpack_partial",
    "Verif.C78_from_partial",
    "Verif.C78_read_partial",
    "Verif.C78_read_outcome_partial",
    "Verif.C78_pack_partial"
   ],
   "note": "Proved as far as C56 (unpacking) and C62 (packing) go, for keys of which no value equals two, as in every dictionary."
  },
  {
   "property": "C79",
   "status": "partial",
   "theorems": [
    "Verif.C79_unpack_partial",
    "Verif.C79_from_partial",
    "Verif.C79_read_partial",
    "Verif.C79_read_outcome_partial",
    "Verif.C79_pack_partial",
    "Verif.C79_pads_partial",
    "Verif.C79_own_is_false"
   ],
   "note": "Proved as far as C56 (unpacking) and C62 (packing) go, for objects without a byte order of their own; if only pads are divided in another way, for all objects. False for objects with a byte order without alignment: the gaps are gone and the pads are not (C79_own_is_false)."
  },
  {
   "property": "C80",
   "status": "partial",
   "theorems": [
    "Verif.C80_add_partial",
    "Verif.C80_mul_partial",
    "Verif.C80_matmul",
    "Verif.C80_zero",
    "Verif.C80_full_is_false",
    "Verif.C80_matmul_forgets"
   ],
   "note": "Proved for formats of one item (every basic type), and for others that end with another code than they start with or end with a string; @ for one item without actions. False for the other formats of several items: 'hIh' * 1 + 'hIh' * 2 has three values (C80_full_is_false)."
  },
  {
   "property": "C81",
   "status": "proved",
   "theorems": [
    "Verif.C81_add",
    "Verif.C81_mul"
   ],
   "note": "A format is allowed in a byte order if it has no native-only code (n, N, P) or the byte order is native; for the sum this is assumed of both operands in the new byte order and of the right one in the byte order of the left one. Counts of 0 and less do not look at the serializer (C10_mul_edge)."
  },
  {
   "property": "C82",
   "status": "proved",
   "theorems": [
    "Verif.C82_meaning",
    "Verif.C82_calls",
    "Verif.C82_threads"
   ],
   "note": "Single uses of the dictionary are atomic, as in CPython; StructSer.numValues is what the rest of the model uses, and C82_calls shows that it is what the cached function returns."
  },
  {
   "property": "C83",
   "status": "partial",
   "theorems": [
    "Verif.C83_getter",
    "Verif.C83_values",
    "Verif.C83_dots_is_false"
   ],
   "note": "Proved for all names without a dot, which every name in a class statement is. False for names with dots, which operator.attrgetter follows. getAttrs is what the rest of the model uses for this getter; C83_getter shows that it is what the code computes."
  },
  {
   "property": "C84",
   "status": "partial",
   "theorems": [
    "Verif.C84_order",
    "Verif.C84_passes",
    "Verif.C84_own",
    "Verif.C84_shared",
    "Verif.C84_library",
    "Verif.C84_with_final_is_first",
    "Verif.C84_final_is_false"
   ],
   "note": "Proved but for the last sentence, which is false in the code: the check given to with_final is applied first (C84_with_final_is_first, C84_final_is_false). C84_library: the transformation used in all theorems about class statements is the one of this registry, with the transformers in the order in which the modules register them; that order was read from the import statements."
  }
 ]
}