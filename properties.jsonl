{"id": "C01", "title": "Varints read back exactly what was written", "statement": "Writing a non-negative integer with WritableTagStream.write_varint and reading at the same place with ReadableTagStream.read_varint returns that integer and leaves the read position exactly after the bytes written, whatever precedes and follows them.", "quantifier": "every natural number, every prefix and suffix of bytes", "why_tests_cant": "The set of integers is infinite and the encoded length is unbounded; tests sample a few widths.", "anchors": ["src/v8serialize/encode.py::WritableTagStream.write_varint", "src/v8serialize/decode.py::ReadableTagStream.read_varint"]}
{"id": "C02", "title": "Varint encodings are self-delimiting and unambiguous", "statement": "No varint encoding is a proper prefix of another one, two different integers never share an encoding, and the encoding written is the shortest byte sequence that read_varint maps to that integer.", "quantifier": "every pair of natural numbers, every byte sequence accepted by read_varint", "why_tests_cant": "Quantifies over all pairs of values and over all alternative byte strings.", "anchors": ["src/v8serialize/encode.py::WritableTagStream.write_varint", "src/v8serialize/decode.py::ReadableTagStream.read_varint"]}
{"id": "C03", "title": "ZigZag is a bijection", "statement": "The zigzag mapping used by write_zigzag sends every integer to a distinct natural number, hits every natural number, and read_zigzag inverts it; |n| small means a small code (2|n| or 2|n|-1).", "quantifier": "every integer and every natural number", "why_tests_cant": "Infinite domain; off-by-one at sign boundaries only shows on particular values.", "anchors": ["src/v8serialize/encode.py::_encode_zigzag", "src/v8serialize/decode.py::_decode_zigzag"]}
{"id": "C04", "title": "32-bit integer writers and readers agree on the range", "statement": "write_int32 / write_uint32 accept exactly the integers of the JavaScript int32 / uint32 range and raise ValueError without writing anything for all others; read_int32 / read_uint32 return an in-range integer or raise DecodeV8SerializeError on every input, and return the written value on written data.", "quantifier": "every integer; every byte string and read position", "why_tests_cant": "The rejection half ranges over all byte strings and all out-of-range integers.", "anchors": ["src/v8serialize/encode.py::WritableTagStream.write_int32", "src/v8serialize/encode.py::WritableTagStream.write_uint32", "src/v8serialize/decode.py::ReadableTagStream.read_int32", "src/v8serialize/decode.py::ReadableTagStream.read_uint32"]}
{"id": "C05", "title": "BigInts survive at any size", "statement": "Every Python int, of any sign and any size up to the format's 30-bit digit-length limit, written with write_bigint is read back unchanged by read_bigint; larger ints are refused with ValueError before anything is written.", "quantifier": "every integer", "why_tests_cant": "Digit-length arithmetic has boundary cases at every power of 256; tests stop at a few hundred digits.", "anchors": ["src/v8serialize/encode.py::WritableTagStream.write_bigint", "src/v8serialize/decode.py::ReadableTagStream.read_bigint"]}
{"id": "C06", "title": "Any Python int keeps its numeric value through dumps/loads", "statement": "loads(dumps(n)) is a number equal to n for every Python int that dumps accepts, although the wire form switches between uint32, int32, double and BigInt depending on magnitude.", "quantifier": "every integer", "why_tests_cant": "Needs exactness of int-to-double conversion for every safe integer and all range boundaries.", "anchors": ["src/v8serialize/encode.py::TagWriter.serialize_int", "src/v8serialize/decode.py::TagReader"]}
{"id": "C07", "title": "Doubles are preserved bit for bit by the stream", "statement": "A float written with write_double is read by read_double with the same 64-bit pattern (including NaN payloads, infinities, signed zero and subnormals).", "quantifier": "every 64-bit pattern", "why_tests_cant": "2^64 inputs.", "anchors": ["src/v8serialize/encode.py::WritableTagStream.write_double", "src/v8serialize/decode.py::ReadableTagStream.read_double"]}
{"id": "C08", "title": "Strings survive all three encodings and bad text is rejected", "statement": "A str written in UTF-8, two-byte or one-byte form is read back as the same str; the UTF-8 and two-byte writers fail exactly on strings holding surrogate code points and the one-byte writer exactly on code points above U+00FF; bytes that are not valid UTF-8/UTF-16 are rejected with DecodeV8SerializeError, and accepted UTF-8 bytes re-encode to the same bytes (no overlong forms).", "quantifier": "every finite sequence of code points; every byte string", "why_tests_cant": "Infinite domain; overlong/surrogate corner cases.", "anchors": ["src/v8serialize/encode.py::WritableTagStream.write_string_utf8", "src/v8serialize/encode.py::WritableTagStream.write_string_twobyte", "src/v8serialize/encode.py::WritableTagStream.write_string_onebyte", "src/v8serialize/decode.py::ReadableTagStream.read_string_utf8", "src/v8serialize/decode.py::ReadableTagStream.read_string_twobyte", "src/v8serialize/decode.py::ReadableTagStream.read_string_onebyte"]}
{"id": "C09", "title": "Two-byte string data is always 2-byte aligned", "statement": "After write_string_twobyte with a tag, the first character byte is at an even offset of the whole stream, for any stream contents before it and any string length, and reading the tag skips the padding that was inserted.", "quantifier": "every prior stream content and every string", "why_tests_cant": "Depends on the parity of prefix length plus the varint width of the length, for all lengths.", "anchors": ["src/v8serialize/encode.py::WritableTagStream.write_string_twobyte", "src/v8serialize/decode.py::ReadableTagStream.read_tag"]}
{"id": "C10", "title": "Only supported format versions are read", "statement": "dumps output starts with the version 15 header; loads raises DecodeV8SerializeError on every input that does not start (after optional zero padding bytes) with a header of version 13, 14 or 15, before decoding any value.", "quantifier": "every byte string", "why_tests_cant": "Negative property over all inputs.", "anchors": ["src/v8serialize/encode.py::WritableTagStream.write_header", "src/v8serialize/decode.py::ReadableTagStream.read_header", "src/v8serialize/decode.py::loads"]}
{"id": "C11", "title": "loads inverts dumps, including sharing and cycles", "statement": "For every object graph that dumps accepts (JSMap/dict, JSSet/set, JSObject, JSArray, lists, dates, primitives, wrapper objects, errors, regexps, buffers, views, with arbitrary sharing and cycles), loads(dumps(v)) succeeds and the result is the same graph: same kinds, same contents in the same order, numerically equal numbers, and an edge in the result leads to the same object exactly when it did in the original (identity preserved). Documented conversions only: wrapper objects are unwrapped, lists become JSArray, integers beyond int32 inside the safe range may come back as floats.", "quantifier": "every finite heap of supported objects, every root value", "why_tests_cant": "Graphs are unbounded in size, depth and cycle structure; the round-trip tests in the repository do not generate sharing or cycles with the reference step.", "anchors": ["src/v8serialize/encode.py::dumps", "src/v8serialize/encode.py::TagWriter", "src/v8serialize/encode.py::serialize_object_references", "src/v8serialize/decode.py::loads", "src/v8serialize/decode.py::TagReader", "src/v8serialize/_references.py::SerializedObjectLog"]}
{"id": "C12", "title": "Encoder and decoder number objects identically", "statement": "While reading what was written, the reader assigns an object id to exactly the same values, in the same order, as the writer did, so that an object reference always resolves to the object that was meant.", "quantifier": "every object graph written with the default steps", "why_tests_cant": "A mismatch only shows in graphs where a particular kind of object precedes a reference; histories are unbounded.", "anchors": ["src/v8serialize/encode.py::WritableTagStream.write_js_regexp", "src/v8serialize/encode.py::WritableTagStream.write_js_error", "src/v8serialize/decode.py::ReadableTagStream.read_js_regexp", "src/v8serialize/decode.py::ReadableTagStream.read_js_error", "src/v8serialize/decode.py::ReadableTagStream.read_js_array_buffer", "src/v8serialize/_references.py::SerializedObjectLog"]}
{"id": "C13", "title": "A shared object is written once", "statement": "When an object is reachable several times, dumps writes its contents only the first time and a reference afterwards, so output size is linear in the size of the graph (nodes plus edges), not in the number of paths.", "quantifier": "every object graph, any amount of sharing", "why_tests_cant": "Exponential path counts need arbitrarily deep sharing.", "anchors": ["src/v8serialize/encode.py::serialize_object_references", "src/v8serialize/_references.py::SerializedObjectLog"]}
{"id": "C14", "title": "dumps terminates on every finite object graph", "statement": "Encoding with the default steps reaches a result or an exception after finitely many nested calls on every finite heap, including arbitrary cycles; nesting depth is bounded by the number of objects.", "quantifier": "every finite heap, every root", "why_tests_cant": "Termination over all cyclic structures.", "anchors": ["src/v8serialize/encode.py::Encoder.encode", "src/v8serialize/encode.py::serialize_object_references"]}
{"id": "C15", "title": "loads terminates and never consumes beyond the data", "statement": "For every byte string loads finishes after at most a number of steps linear in its length, each decoded value consumes at least one byte, and the read position never passes the end of the data.", "quantifier": "every byte string", "why_tests_cant": "Requires reasoning about all malformed inputs.", "anchors": ["src/v8serialize/decode.py::ReadableTagStream", "src/v8serialize/decode.py::Decoder.decodes"]}
{"id": "C16", "title": "Truncated data is never accepted as a value", "statement": "Cutting off the end of the data consumed by a successful loads makes loads raise an error instead of returning some other value.", "quantifier": "every successfully decoded byte string and every proper prefix of it", "why_tests_cant": "All inputs times all cut points.", "anchors": ["src/v8serialize/decode.py::ReadableTagStream", "src/v8serialize/decode.py::loads"]}
{"id": "C17", "title": "Malformed data raises the documented exception", "statement": "On every byte string loads either returns a value or raises DecodeV8SerializeError (or a subclass), never IndexError, AssertionError, bare ValueError and the like.", "quantifier": "every byte string", "why_tests_cant": "Fuzzing can only sample; the claim is about all inputs.", "anchors": ["src/v8serialize/decode.py::loads", "src/v8serialize/decode.py::ReadableTagStream.throw"]}
{"id": "C18", "title": "Item counts are checked", "statement": "Whenever loads accepts a Map, Set, Object or Array, the trailing count (and array length) in the data equals the number of entries actually read; any other count makes loads raise DecodeV8SerializeError.", "quantifier": "every byte string containing a collection", "why_tests_cant": "All inputs, all counts.", "anchors": ["src/v8serialize/decode.py::ReadableTagStream.read_jsmap", "src/v8serialize/decode.py::ReadableTagStream.read_jsset", "src/v8serialize/decode.py::ReadableTagStream._read_js_object_properties", "src/v8serialize/decode.py::ReadableTagStream.read_js_array_dense", "src/v8serialize/decode.py::ReadableTagStream.read_js_array_sparse"]}
{"id": "C19", "title": "Object keys on the wire are numbers or strings only", "statement": "Neither side lets anything but a number or string tag stand in object-key position: the reader rejects other tags with DecodeV8SerializeError, and the writer raises EncodeV8SerializeError instead of writing one.", "quantifier": "every key value passed to write_js_object / every byte string", "why_tests_cant": "All values in key position, including ones that go through nested encode steps.", "anchors": ["src/v8serialize/encode.py::WritableTagStream._write_js_object_properties", "src/v8serialize/encode.py::WritableTagStream.constrain_tags", "src/v8serialize/decode.py::ReadableTagStream._read_js_object_properties"]}
{"id": "C20", "title": "De-duplication never changes what is written", "statement": "EncodeContext.deduplicate only ever replaces a value by one that decodes to an indistinguishable value: with the default steps the decoded result of each occurrence equals what that occurrence alone would decode to.", "quantifier": "every sequence of values encoded in one context", "why_tests_cant": "Python equality conflates values (0.0/-0.0, 1/True inside tuples) that only collide in particular combinations and orders.", "anchors": ["src/v8serialize/encode.py::DefaultEncodeContext.deduplicate", "src/v8serialize/encode.py::serialize_object_references"]}
{"id": "C21", "title": "Both error layouts read the same", "statement": "An Error with its stack before the cause (new layout) and the same Error with its stack after the cause (old layout) decode to the same error.", "quantifier": "every error name, message, stack and cause encoding", "why_tests_cant": "All combinations of optional fields and arbitrary cause payloads.", "anchors": ["src/v8serialize/decode.py::ReadableTagStream.read_js_error"]}
{"id": "C22", "title": "Cyclic error causes are refused when unsupported", "statement": "Without the CircularErrorCause feature dumps never writes a reference to an error from within its own cause: it raises IllegalCyclicReferenceV8SerializeError, at any nesting depth; references to the error after it is complete work. With the feature, cyclic causes are written and read back cyclic.", "quantifier": "every object graph and every feature set", "why_tests_cant": "Cycles may pass through any number of other containers and errors.", "anchors": ["src/v8serialize/encode.py::WritableTagStream.write_js_error", "src/v8serialize/_references.py::SerializedObjectLog.record_acyclic_reference"]}
{"id": "C23", "title": "Disabled features never appear in the output", "statement": "With a SerializationFeature disabled, dumps never emits the encoding that needs it: no resizable ArrayBuffer without ResizableArrayBuffers, no Float16Array view without Float16Array, no v-flag RegExp without RegExpUnicodeSets.", "quantifier": "every object graph and every feature set", "why_tests_cant": "Feature leakage can occur anywhere in an arbitrary graph.", "anchors": ["src/v8serialize/encode.py::WritableTagStream.write_js_array_buffer", "src/v8serialize/encode.py::WritableTagStream.write_js_array_buffer_view", "src/v8serialize/encode.py::WritableTagStream.write_js_regexp", "src/v8serialize/constants.py::SerializationFeature"]}
{"id": "C24", "title": "Feature selection by V8 version is monotone and exact", "statement": "SerializationFeature.supported_by(v) contains a feature exactly when v is at least the feature's first version; newer versions support supersets; versions before 10.0.29 raise LookupError; Encoder.first_v8_version is a version that supports every enabled feature and is the least such.", "quantifier": "every version number (any number of components) and every feature set", "why_tests_cant": "Version numbers are unbounded.", "anchors": ["src/v8serialize/constants.py::SerializationFeature.supported_by", "src/v8serialize/encode.py::Encoder.first_v8_version"]}
{"id": "C25", "title": "Dense or sparse wire form makes no difference", "statement": "A JSArray decodes to an equal array (same length, same elements at the same indexes, same extra properties in order) whether it is written in the dense or in the sparse form.", "quantifier": "every JSArray content", "why_tests_cant": "The choice depends on counts; both encodings must be right for all contents.", "anchors": ["src/v8serialize/encode.py::TagWriter.serialize_js_array", "src/v8serialize/encode.py::WritableTagStream.write_js_array_dense", "src/v8serialize/encode.py::WritableTagStream.write_js_array_sparse", "src/v8serialize/decode.py::TagReader.deserialize_js_array_sparse", "src/v8serialize/decode.py::TagReader.deserialize_js_array_dense"]}
{"id": "C26", "title": "Array length and holes are preserved", "statement": "For every JSArray, length and the exact set of empty indexes (including trailing holes) are the same after dumps/loads.", "quantifier": "every JSArray content including trailing holes", "why_tests_cant": "All hole patterns.", "anchors": ["src/v8serialize/encode.py::TagWriter.serialize_js_array", "src/v8serialize/decode.py::TagReader.deserialize_js_array_dense", "src/v8serialize/decode.py::TagReader.deserialize_js_array_sparse"]}
{"id": "C27", "title": "Dense array storage behaves like a list with holes", "statement": "After any sequence of get/set/delete/insert/append/resize/extend operations a DenseArrayProperties has exactly the length, elements and element count of an ordinary list on which the same operations were done.", "quantifier": "every finite operation history", "why_tests_cant": "Histories are unbounded; the cached hole count can drift only after particular histories.", "anchors": ["src/v8serialize/jstypes/jsarrayproperties.py::DenseArrayProperties"]}
{"id": "C28", "title": "Sparse array storage behaves like a list with holes", "statement": "After any sequence of get/set/delete/insert/append/resize operations a SparseArrayProperties has exactly the length, elements and element order of an ordinary list on which the same operations were done, and no operation fails that succeeds on the list.", "quantifier": "every finite operation history", "why_tests_cant": "The lazily rebuilt sorted key cache only goes wrong after particular histories.", "anchors": ["src/v8serialize/jstypes/jsarrayproperties.py::SparseArrayProperties"]}
{"id": "C29", "title": "The automatic dense-to-sparse switch is invisible", "statement": "Whatever sequence of assignments and deletions is done on a JSObject or JSArray, reads give the last value assigned to the same normalised key, as for an ordinary mapping; the internal switch from dense to sparse storage never changes any observable content.", "quantifier": "every finite operation history on any keys", "why_tests_cant": "Switch points depend on history; unbounded.", "anchors": ["src/v8serialize/jstypes/jsobject.py::JSObject.__setitem__", "src/v8serialize/jstypes/jsobject.py::JSObject._ensure_array_capacity"]}
{"id": "C30", "title": "Property key normalisation is canonical", "statement": "normalise_property_key is idempotent, maps an integer key and its decimal string to the same key, returns an int exactly for array indexes 0..2^32-2, and two keys are merged exactly when they denote the same property (no distinct array indexes or distinct non-index strings are merged).", "quantifier": "every string, int and integral float", "why_tests_cant": "Infinite domain with boundaries at leading zeros and 2^32-1.", "anchors": ["src/v8serialize/jstypes/_normalise_property_key.py::normalise_property_key"]}
{"id": "C31", "title": "JSObject enumerates in JavaScript order", "statement": "Iterating a JSObject yields array indexes in ascending order followed by other keys in insertion order, never an empty slot, each key once, len() equals the number of keys yielded.", "quantifier": "every operation history", "why_tests_cant": "Unbounded histories.", "anchors": ["src/v8serialize/jstypes/jsobject.py::JSObject.__iter__", "src/v8serialize/jstypes/jsobject.py::JSObject.__len__"]}
{"id": "C32", "title": "JSMap implements JavaScript Map key equality and order", "statement": "After any history of sets, deletes and updates, a JSMap holds at most one entry per same-value-zero class of keys (NaN equals NaN, 0 equals -0, objects by identity, 1 and True distinct), lookups return the last value set for that class, and iteration follows first-insertion order.", "quantifier": "every operation history over all key values", "why_tests_cant": "Unbounded histories and infinitely many keys.", "anchors": ["src/v8serialize/jstypes/jsmap.py::JSMap", "src/v8serialize/jstypes/_equality.py::same_value_zero"]}
{"id": "C33", "title": "JSSet implements JavaScript Set membership and order", "statement": "After any history of add/discard, a JSSet contains exactly the members whose same-value-zero class was last added rather than removed, once each, in first-insertion order.", "quantifier": "every operation history over all values", "why_tests_cant": "Unbounded histories.", "anchors": ["src/v8serialize/jstypes/jsset.py::JSSet", "src/v8serialize/jstypes/_equality.py::same_value_zero"]}
{"id": "C34", "title": "Equality on cyclic objects terminates, cleans up and is sound", "statement": "Comparing JSObject/JSMap/JSError graphs with == terminates on every finite cyclic graph, leaves no residue that affects later comparisons, agrees with structural equality on acyclic values, and on cyclic graphs returns True only if the graphs have the same structure.", "quantifier": "every pair of finite object graphs", "why_tests_cant": "All cyclic structures; residue only shows in later calls.", "anchors": ["src/v8serialize/_recursive_eq.py::recursive_eq"]}
{"id": "C35", "title": "Resizing a JSArrayBuffer keeps its invariants", "statement": "After any sequence of resizes the byte length is between 0 and max_byte_length, surviving bytes keep their values, new bytes are zero, and a refused resize changes nothing; fixed-length buffers never change size.", "quantifier": "every operation history and every requested size", "why_tests_cant": "Unbounded histories.", "anchors": ["src/v8serialize/jstypes/jsbuffers.py::JSArrayBuffer.resize"]}
{"id": "C36", "title": "A typed array view never reaches outside its buffer", "statement": "For every buffer size, offset, length and later resize, the region a JSTypedArray/JSDataView exposes lies inside the backing buffer, its byte length is a multiple of the element size, it is empty when out of bounds, and length-tracking views follow the buffer.", "quantifier": "every buffer, view parameters and resize history", "why_tests_cant": "All combinations of sizes and resize histories.", "anchors": ["src/v8serialize/jstypes/jsbuffers.py::JSArrayBufferView"]}
{"id": "C37", "title": "DataView writes read back and touch nothing else", "statement": "For every element type, endianness, offset and value in range, set_X followed by get_X at the same offset returns the value, all other bytes of the buffer are unchanged, and out-of-range offsets or values raise without changing anything.", "quantifier": "every buffer content, offset, endianness and value", "why_tests_cant": "All contents and values.", "anchors": ["src/v8serialize/jstypes/jsbuffers.py::JSDataView", "src/v8serialize/jstypes/jsbuffers.py::DataViewBuffer"]}
{"id": "C38", "title": "Node.js host-object views round trip", "statement": "A view written with serialize_js_array_buffer_views_as_nodejs_host_object is read by NodeJsArrayBufferViewHostObjectHandler as a view of the same kind with exactly the bytes the view exposed; unknown view codes and short data raise a DecodeV8SerializeError.", "quantifier": "every supported view and content; every byte string", "why_tests_cant": "Infinite domain.", "anchors": ["src/v8serialize/extensions.py::NodeJsArrayBufferViewHostObjectHandler"]}
{"id": "C39", "title": "Unknown and unsupported tags are rejected, padding is ignored", "statement": "loads raises DecodeV8SerializeError when a value position holds a byte that is not a supported value tag (unknown, legacy, structural or end tags); any number of padding bytes before a value tag does not change the decoded value.", "quantifier": "every byte value, every amount of padding, every following data", "why_tests_cant": "All inputs.", "anchors": ["src/v8serialize/decode.py::ReadableTagStream.read_tag", "src/v8serialize/decode.py::TagReader"]}
{"id": "C40", "title": "Encode/decode steps are tried in order", "statement": "For any list of steps, a value (or tag) is offered to the steps in order, each step sees exactly what the previous one passed to next(), the first step that does not call next() decides the result, and if none does UnhandledValue/UnhandledTag errors are raised; nested values start again at the first step.", "quantifier": "every list of steps and every value", "why_tests_cant": "Any number and behaviour of user-supplied steps.", "anchors": ["src/v8serialize/encode.py::DefaultEncodeContext", "src/v8serialize/decode.py::DefaultDecodeContext"]}
{"id": "C41", "title": "loads option combinations are checked", "statement": "loads raises TypeError exactly when decode_steps is combined with any other option, or nodejs=True with host_object_deserializer; the Node.js handler is installed exactly when decode_steps and host_object_deserializer are unset and nodejs is not False.", "quantifier": "every combination of option presence and values", "why_tests_cant": "Full decision table over nine options.", "anchors": ["src/v8serialize/decode.py::loads"]}
{"id": "C42", "title": "The object log is a faithful numbering", "statement": "Ids are handed out 0,1,2,... in recording order; get_object(get_serialized_id(x)) is x for every recorded object that was not replaced, unknown objects or ids raise, and only the most recently recorded entry can be replaced.", "quantifier": "every history of record/replace/lookup operations", "why_tests_cant": "Unbounded histories.", "anchors": ["src/v8serialize/_references.py::SerializedObjectLog"]}
{"id": "C43", "title": "RegExp flags stay valid", "statement": "Every JSRegExp that can exist has not both u and v set and has a non-empty source; flags written are always the canonical 9 bits, and reading them back yields the same canonical flags.", "quantifier": "every source and flag value", "why_tests_cant": "All flag integers, all sources.", "anchors": ["src/v8serialize/jstypes/jsregexp.py::JSRegExp", "src/v8serialize/constants.py::JSRegExpFlag"]}
{"id": "C44", "title": "Typed array views survive dumps/loads", "statement": "A view over an ArrayBuffer comes back as a view of the same type exposing the same bytes at the same byte offset of an equal buffer, length-tracking and resizability preserved when the feature is enabled, and two views of one buffer still share it.", "quantifier": "every buffer content, view type, offset, length", "why_tests_cant": "All sizes/offsets and sharing patterns.", "anchors": ["src/v8serialize/encode.py::TagWriter.serialize_js_array_buffer_view", "src/v8serialize/decode.py::TagReader.deserialize_js_array_buffer", "src/v8serialize/decode.py::ReadableTagStream.read_js_array_buffer_view"]}
{"id": "C45", "title": "Trailing data does not change the decoded value", "statement": "Appending bytes to a message that loads accepts does not change the value returned.", "quantifier": "every accepted message and every suffix", "why_tests_cant": "All inputs times all suffixes.", "anchors": ["src/v8serialize/decode.py::Decoder.decodes", "src/v8serialize/decode.py::ReadableTagStream.peak_tag"]}
{"id": "C46", "title": "Different values never serialise to the same bytes", "statement": "If dumps produces the same bytes for two object graphs then the two graphs are the same up to object naming and the documented conversions.", "quantifier": "every pair of object graphs", "why_tests_cant": "All pairs of graphs.", "anchors": ["src/v8serialize/encode.py::dumps"]}
{"id": "C47", "title": "Error names on the wire are always known ones", "statement": "Errors decode with one of the seven known names; a known name survives dumps/loads and every other name becomes Error.", "quantifier": "every string as error name; every byte string", "why_tests_cant": "All strings.", "anchors": ["src/v8serialize/encode.py::WritableTagStream.write_js_error", "src/v8serialize/decode.py::ReadableTagStream.read_js_error", "src/v8serialize/constants.py::JSErrorName"]}
{"id": "C48", "title": "Decoding does not amplify the input", "statement": "The number of objects, stored elements and object-log entries created by loads is at most linear in the number of bytes of input (a fixed small factor), for every input: declared lengths such as 2^32-1 never cause allocation of elements that are not in the data.", "quantifier": "every byte string", "why_tests_cant": "All malformed inputs with huge declared lengths.", "anchors": ["src/v8serialize/decode.py::TagReader", "src/v8serialize/decode.py::ReadableTagStream"]}
{"id": "C49", "title": "The result of dumps depends only on the form of the graph", "statement": "If two object graphs have the same form (a one-to-one pairing of their objects with the same contents, keys in the same order, the same sharing and cycles), then dumps writes the same bytes for both or raises the same exception for both, whatever the identities of the objects, their place in memory and the storage (dense or sparse, list or JSArray, unused capacity) they use.", "quantifier": "every pair of object graphs of the same form, including cyclic ones", "why_tests_cant": "All pairs of graphs; object identities cannot be enumerated by tests.", "anchors": ["src/v8serialize/encode.py::dumps", "src/v8serialize/encode.py::WritableTagStream", "src/v8serialize/encode.py::TagWriter"]}
{"id": "C50", "title": "Reading and writing again gives the same bytes", "statement": "If a value is written with dumps and read with loads, writing the result again gives the same bytes; and for any data at all, the message that is written for what loads returned does not change any more when it is read and written again.", "quantifier": "every object graph, including cyclic ones; every byte string that loads accepts", "why_tests_cant": "All graphs and all data; a value may change its form in memory at any depth.", "anchors": ["src/v8serialize/encode.py::dumps", "src/v8serialize/decode.py::loads"]}
{"id": "C51", "title": "What loads returns is well formed", "statement": "Whatever the data, if loads returns a value then every object in it exists and is as its class promises: arrays are within JavaScript's length limit and consistent, hold no holes as values and have no array index among their names, map keys and set members are pairwise different, no text contains surrogates, integers have 32 bits or no more bits than the data, RegExp flags do not conflict and the source is not empty, Errors have a known name, buffers are within their maximum size, views lie inside their buffer; and no wrapper object or bytes object is left in the result.", "quantifier": "every byte string and every decoder configuration covered by the model", "why_tests_cant": "The input is arbitrary, possibly hostile data; the invariant must hold in every reachable decoder state.", "anchors": ["src/v8serialize/decode.py::loads", "src/v8serialize/decode.py::TagReader", "src/v8serialize/jstypes/jsobject.py::JSObject", "src/v8serialize/jstypes/jsbuffers.py"]}
{"id": "C52", "title": "What loads returned can be written and read again", "statement": "dumps accepts every value that loads returned, and reading the result gives the same contents, sharing and cycles once more.", "quantifier": "every byte string that loads accepts", "why_tests_cant": "Arbitrary data, not only data that dumps wrote.", "anchors": ["src/v8serialize/decode.py::loads", "src/v8serialize/encode.py::dumps"]}
{"id": "C53", "title": "Which values dumps accepts", "statement": "dumps succeeds exactly when every value that can be reached from its argument is one the format can hold: text without surrogates, integers of at most 8*(2^30-1)-1 bits, dates with a time value, buffers below 2^32 bytes, non-negative ids, Float16Array only with its feature, no object of an unknown type (Errors that are in their own cause only with the feature for cyclic causes).", "quantifier": "every object graph, including cyclic ones", "why_tests_cant": "The graphs are unbounded; refusal may depend on a value at any depth.", "anchors": ["src/v8serialize/encode.py::dumps", "src/v8serialize/encode.py::TagWriter", "src/v8serialize/encode.py::WritableTagStream"]}
{"id": "C54", "title": "RegExp flags and patterns convert to and from Python's re", "statement": "from_python_flags and as_python_flags translate exactly the flags with the same meaning and refuse exactly VERBOSE and the l flag; converting there and back keeps what has a meaning on both sides; str(flags) lists the set letters in alphabetical order and determines the flags; from_python_pattern gives a valid RegExp with the pattern's text or fails with JSRegExpV8SerializeError (None with throw=False), as_python_pattern compiles the source with the converted flags; a pattern given to dumps comes back as the RegExp it converts to.", "quantifier": "every flag value, every pattern text", "why_tests_cant": "All combinations of flag bits including meaningless ones; any text.", "anchors": ["src/v8serialize/constants.py::JSRegExpFlag", "src/v8serialize/jstypes/jsregexp.py::JSRegExp.from_python_pattern", "src/v8serialize/jstypes/jsregexp.py::JSRegExp.as_python_pattern"]}
{"id": "C55", "title": "JSPrimitiveObject holds only values that its tag can carry", "statement": "The constructor accepts exactly the pairs of a value and a tag that suit each other, chooses a suitable tag if none is given, refuses a wrong tag with ValueError and other types with TypeError; what is written after the tag reads back as the same value.", "quantifier": "every value and tag", "why_tests_cant": "All values.", "anchors": ["src/v8serialize/jstypes/jsprimitiveobject.py::JSPrimitiveObject"]}
{"id": "C56", "title": "JSSet is a set under SameValueZero in all its operators", "statement": "|, &, -, ^, their in-place forms, isdisjoint, <=, <, >=, > and pop/remove on a JSSet built by any history give exactly the members that set theory demands, with membership by SameValueZero, in a definite order, for any JSSet, Python set or iterable (with repetitions) on the other side; an integer too big for a double anywhere in an iterable raises OverflowError.", "quantifier": "every JSSet, every operand, every history", "why_tests_cant": "Unbounded sets; equality classes mix ints, floats, NaN and object identity.", "anchors": ["src/v8serialize/jstypes/jsset.py::JSSet"]}
{"id": "C57", "title": "The methods JSMap inherits agree with a list of entries", "statement": "in, pop, popitem and setdefault, mixed in any order with setting, reading, deleting and clearing, give the same answers, exceptions and entries as a list of entries searched with SameValueZero; popitem takes the entry stored first.", "quantifier": "every history of operations", "why_tests_cant": "Unbounded histories.", "anchors": ["src/v8serialize/jstypes/jsmap.py::JSMap"]}
{"id": "C58", "title": "A Python exception becomes a chain of JavaScript Errors with a readable stack", "statement": "A Python exception is turned into an Error named Error whose message is its first line, whose stack begins with that message and shows the exception, its frames with the most recent call first, the members of exception groups with indentation and the numbers that lead to them, and the exceptions that were being handled, each exactly once and in this order; its causes become a chain of Errors; the chain is accepted by dumps and comes back from loads with the same messages, stacks and order.", "quantifier": "every tree of exceptions, groups, contexts and causes", "why_tests_cant": "Trees of any shape and depth.", "anchors": ["src/v8serialize/jstypes/_v8traceback.py::format_exception_for_v8", "src/v8serialize/jstypes/_v8traceback.py::format_v8_stack", "src/v8serialize/jstypes/_v8traceback.py::prefix_lines", "src/v8serialize/jstypes/jserror.py::JSErrorData.from_traceback_exception", "src/v8serialize/encode.py::TagWriter"]}
{"id": "C59", "title": "A JSObject used as a mapping is a list of properties", "statement": "Reading, assigning, deleting, in, get, pop, popitem, setdefault, clear, iteration and len on a JSObject or JSArray, in any order, give the same answers and exceptions and leave the same properties as a list of properties with the indexes first in ascending order and then the names in order of creation; the constructors succeed and assign their arguments one after the other; nothing else of the history shows.", "quantifier": "every history of operations, every argument of the constructors", "why_tests_cant": "Unbounded histories; the storage switches between dense and sparse behind the methods.", "anchors": ["src/v8serialize/jstypes/jsobject.py::JSObject", "src/v8serialize/jstypes/jsarray.py::JSArray", "src/v8serialize/jstypes/jsarrayproperties.py"]}
{"id": "C60", "title": "Dates survive dumps and loads", "statement": "A datetime with a time zone that dumps writes and loads reads is the same point in time to the microsecond; a datetime with whole milliseconds is written as exactly that number of milliseconds, and every whole number of milliseconds that is read is exactly that date.", "quantifier": "every datetime (microseconds) and every double", "why_tests_cant": "The conversion goes through four rounded double operations; errors show only for some of 10^17 dates.", "anchors": ["src/v8serialize/encode.py::WritableTagStream.write_js_date", "src/v8serialize/decode.py::ReadableTagStream.read_js_date", "src/v8serialize/encode.py::TagWriter.serialize_python_datetime"]}
{"id": "C61", "title": "DataView's floats are IEEE 754 numbers", "statement": "get_float16 and get_float32 give exactly the number that the bytes stand for in IEEE 754; set_float16 and set_float32 store, as JavaScript's setters do, the nearest number of the format (of two equally near ones the even one) with the sign, infinity for numbers that are too big, infinity and NaN as such; a number that the format has is read back as stored; an integer is first turned into the nearest double.", "quantifier": "every double, every integer, every pattern of 16 and 32 bits, every buffer, offset and byte order", "why_tests_cant": "2^64 doubles; double rounding and ties occur for few of them.", "anchors": ["src/v8serialize/jstypes/jsbuffers.py::DataViewBuffer"]}
{"id": "C62", "title": "A JSMap equals a dict as a dict would, a JSSet equals a set as a set would", "statement": "m == d for a JSMap m and a dict d holds exactly when their entries can be matched one to one with equal keys and values, in any order, and likewise s == t for a JSSet s and a set t; two JSMaps, and two JSSets, are equal exactly when the lists of their entries or members are; comparing raises nothing but what comparing the values raises.", "quantifier": "every JSMap, JSSet, dict and set, every == and hash that obey Python's rules", "why_tests_cant": "needs keys that are equal in Python and different in JavaScript, unhashable keys, and every order.", "anchors": ["src/v8serialize/jstypes/jsmap.py::JSMap", "src/v8serialize/jstypes/jsset.py::JSSet"]}
{"id": "C63", "title": "The elements of a typed array are the numbers in its bytes", "statement": "Indexing the array that get_buffer() of a typed array gives reads the number which the bytes at that place of the view stand for, in the format of the array's class; assigning an element changes the bytes of that element only and stores the number JavaScript would store, or raises and changes nothing; two typed arrays are equal exactly when their elements are the same numbers, and equal ones have the same hash; the Float16 array for Python before 3.12 acts like the native one.", "quantifier": "every typed array class, view, buffer, index and value; every sequence of assignments", "why_tests_cant": "needs every class, NaN payloads, values between two numbers of a format, and every sequence of assignments.", "anchors": ["src/v8serialize/jstypes/jsbuffers.py::JSTypedArray", "src/v8serialize/jstypes/jsbuffers.py::JSArrayBufferView", "src/v8serialize/jstypes/jsbuffers.py::BackportJSFloat16Array"]}
{"id": "C64", "title": "Options of TagReader change how values are represented and nothing else", "statement": "With given jsmap_type, jsset_type, js_object_type, js_array_type (the defaults, or dict and set as documented), js_error_builder and js_constants, loads accepts the data it accepts with the defaults, raises the same otherwise, and returns the same graph of objects, in which each constant is the given value and each container is of the given type with the same contents in the same order.", "quantifier": "every byte sequence, every choice of the options, every way Python hashes and compares keys", "why_tests_cant": "needs every combination of options with every nesting of containers, and keys that clash only under some options.", "anchors": ["src/v8serialize/decode.py::TagReader", "src/v8serialize/decode.py::TagReader.deserialize_jsmap", "src/v8serialize/decode.py::TagReader.deserialize_jsset", "src/v8serialize/decode.py::TagReader.deserialize_js_object", "src/v8serialize/decode.py::TagReader.deserialize_js_array_sparse", "src/v8serialize/decode.py::TagReader.deserialize_constant", "src/v8serialize/jstypes/jserror.py::JSErrorData"]}
{"id": "C65", "title": "Blocks of js_repr_settings restore the settings of repr()", "statement": "When every js_repr_settings block that was entered has been left, in whatever order, the JSRepr that was active before is active again. Within a block each setting is the keyword argument given for it (None keeps a setting, except for indent, where it is a value), else that of the settings around the block; an argument that is no setting is TypeError and changes nothing.", "quantifier": "every sequence of entering and leaving blocks, every combination of arguments, given JSRepr objects and force_restore", "why_tests_cant": "needs every interleaving of blocks, as with threads, generators or exit stacks.", "anchors": ["src/v8serialize/jstypes/_repr.py::js_repr_settings", "src/v8serialize/jstypes/_repr.py::JSRepr.__init__"]}
{"id": "C66", "title": "repr() of a JS value is an expression for an equal value", "statement": "Evaluating the text that repr() gives for a JSObject, JSArray, JSMap, JSSet or JSError, with these classes and JSHole, JSUndefined in scope, gives a new object equal to the original: the same class, the same properties, elements, entries or members in the same order, scalars being the same and objects inside again equal and new.", "quantifier": "every graph of JS objects and scalars, every setting of the limits of JSRepr, every set of names that are identifiers or reserved words", "why_tests_cant": "needs arbitrarily nested values of all classes, with property names of any shape.", "anchors": ["src/v8serialize/jstypes/_repr.py::JSRepr.repr_JSObject", "src/v8serialize/jstypes/_repr.py::JSRepr.repr_JSArray", "src/v8serialize/jstypes/_repr.py::JSRepr.repr_JSMap", "src/v8serialize/jstypes/_repr.py::JSRepr.repr_JSSet", "src/v8serialize/jstypes/_repr.py::JSRepr.repr_JSError", "src/v8serialize/jstypes/_repr.py::RecursiveReprMixin.repr1"]}
{"id": "C67", "title": "Readers of one's own for tags are used for their tags and change nothing else", "statement": "After any sequence of creating registries, registering readers, copying registries and creating TagReaders, each registry returns for a tag the reader registered for it last; a TagReader uses the readers of the registry it was given as they were then, and its own ones for other tags.  Decoding with readers of one's own calls them for exactly their tags; data in which these tags are not met decodes as with loads; readers for tags that loads cannot read do not change the result for any data that it can read; the same holds for decode steps placed before the TagReader.", "quantifier": "every history of calls on any number of registries, all reader functions and decode steps, every byte string", "why_tests_cant": "quantifies over arbitrary functions supplied by users and over histories of shared mutable registries.", "anchors": ["src/v8serialize/decode.py::TagReaderRegistry.register", "src/v8serialize/decode.py::TagReaderRegistry.register_all", "src/v8serialize/decode.py::TagReaderRegistry.match", "src/v8serialize/decode.py::TagReader.__init__", "src/v8serialize/decode.py::TagReader.register_tag_readers", "src/v8serialize/decode.py::TagReader.decode", "src/v8serialize/decode.py::DefaultDecodeContext.decode_object"]}
{"id": "C68", "title": "Array buffers share memory exactly when asked to, and never read outside it", "statement": "After any sequence of calls on bytes, bytearray and array objects, memoryviews and JSArrayBuffers: each memoryview in use lies within its object, a buffer shows at most max_byte_length bytes, and resize changes the length (keeping the bytes that remain, zeros after them) or raises BufferError if a memoryview is in use.  A buffer that copied its data keeps its bytes whatever is done to other objects; one made with copy_data=False shows the bytes of the source at all times; a read-only buffer hands out read-only memoryviews only; a closed buffer that held a memoryview raises ValueError for ever; views give memoryviews of exactly the bytes of their region.", "quantifier": "every history of calls on any number of objects that share memory", "why_tests_cant": "aliasing: the guarantees are about every interleaving of writes, resizes, releases through all handles of the same memory.", "anchors": ["src/v8serialize/jstypes/jsbuffers.py::JSArrayBuffer.__init__", "src/v8serialize/jstypes/jsbuffers.py::JSArrayBuffer.resize", "src/v8serialize/jstypes/jsbuffers.py::JSArrayBuffer.__buffer__", "src/v8serialize/jstypes/jsbuffers.py::JSArrayBuffer.close", "src/v8serialize/jstypes/jsbuffers.py::JSArrayBufferView.get_buffer_as_memoryview", "src/v8serialize/jstypes/jsbuffers.py::JSTypedArray.get_buffer"]}
{"id": "C69", "title": "The inherited methods of array properties behave like those of a list", "statement": "index (with start and stop), in, count, reversed(), reverse, remove, clear, extend and extend(self) of DenseArrayProperties and SparseArrayProperties, which they inherit from MutableSequence, return, raise and leave behind what the same methods of a Python list with JSHole elements do, in any history of these and the other operations.", "quantifier": "all initial values, comparisons and histories of operations, either implementation", "why_tests_cant": "the inherited loops run on __getitem__, __setitem__ and pop, and whether they work depends on cached state left by earlier operations.", "anchors": ["src/v8serialize/jstypes/jsarrayproperties.py::AbstractArrayProperties", "src/v8serialize/jstypes/jsarrayproperties.py::SparseArrayProperties.__setitem__", "src/v8serialize/jstypes/jsarrayproperties.py::SparseArrayProperties.append"]}
{"id": "C70", "title": "A value is written by the method of its most specific registered class", "statement": "For a value of any class TagWriter.encode calls a method registered for a class that the value is an instance of. A registered class gets its own method, and no registered class that the value is an instance of is passed over for one that it is a subclass of. JSError and classes derived from it are written as JS errors, never as Python exceptions. Some method is found for every class.", "quantifier": "all class hierarchies, virtual subclasses, registration orders and classes of values", "why_tests_cant": "the choice depends on all classes of the program, on virtual subclasses and on the order of a set; tests see a few classes.", "anchors": ["src/v8serialize/encode.py::TagWriter.encode", "src/v8serialize/jstypes/jserror.py::JSError", "src/v8serialize/jstypes/jserror.py::JSErrorData"]}
{"id": "C71", "title": "Version texts select the features of the release they name", "statement": "parse_lenient_version(text) gives the version that packaging gives for every text that packaging accepts. Release numbers followed by '-' and a suffix that packaging does not accept are that release with the words of the suffix as its local part, and every other text raises InvalidVersion. SerializationFeature.supported_by(text) gives for release numbers, with or without such a suffix, the features of C24. Versions of any form are totally ordered, a newer version has all features of an older one, a local part never changes the features, and a pre-release of a feature's first version does not have the feature.", "quantifier": "all texts and all versions (any epoch, release numbers, pre-, post-, development and local parts)", "why_tests_cant": "the regular expression backtracks over optional parts, so which part of a text is taken as what depends on the whole text; tests parse a few versions.", "anchors": ["src/v8serialize/_versions.py::parse_lenient_version", "src/v8serialize/constants.py::SerializationFeature.supported_by"]}
{"id": "C72", "title": "Comparisons in different threads do not affect each other", "statement": "When several threads compare JS objects with == at the same time, also the same objects, each thread gets the results it would get alone. No thread waits for another, and a thread that has finished leaves nothing behind in the set of running comparisons.", "quantifier": "all object graphs, numbers of threads and comparisons, and all interleavings of their steps", "why_tests_cant": "interleavings cannot be enumerated, and the set of running comparisons is shared by all threads.", "anchors": ["src/v8serialize/_recursive_eq.py::recursive_eq"]}
{"id": "C73", "title": "JSError and JSErrorData compare by what they carry", "statement": "Two JS errors are equal exactly when they are the same object or have equal name, message, stack and cause (two JSErrors also the same traceback, two JSErrorData the same class); this is an equivalence relation. A copy made by from_js_error or a builder equals the original. A JSError's message is always a string, the one last assigned. JSErrorData of one class are totally ordered by message, name and stack. str() of a JSError begins with the message and shows every field once.", "quantifier": "all errors, causes with any equality, and all sequences of operations on an error", "why_tests_cant": "equality involves two classes with reflected methods, tracebacks and virtual subclasses; tests compare a few pairs.", "anchors": ["src/v8serialize/jstypes/jserror.py::JSError", "src/v8serialize/jstypes/jserror.py::JSErrorData", "src/v8serialize/_errors.py::V8SerializeError"]}
{"id": "C74", "title": "Cached lookups do not depend on what was looked up before", "statement": "The lookups kept in an lru_cache (array buffer view formats, Node.js buffer formats, error names by tag, features by V8 version) return what the function without a cache returns, for every sequence of calls and every cache size. A view tag finds its own view class, a data format the class with that format on every platform, a Node.js code the format with that code, an error tag the name with that tag.", "quantifier": "all sequences of calls with all arguments, all cache sizes, all platforms' struct sizes", "why_tests_cant": "a poisoned cache needs a particular earlier call in the same process; tests call each lookup in one order.", "anchors": ["src/v8serialize/jstypes/jsbuffers.py::ArrayBufferViewStructFormat", "src/v8serialize/jstypes/jsbuffers.py::DataFormat.resolve", "src/v8serialize/extensions.py::NodeBufferFormat", "src/v8serialize/constants.py::JSErrorName.for_error_tag", "src/v8serialize/constants.py::SerializationFeature.supported_by"]}
{"id": "C75", "title": "A number used as a property key names the property that JavaScript would name", "statement": "The key that a float normalises to has the text that Number::toString of ECMA-262 gives the number: for every integer below 2^53 in magnitude, for other integers exactly if they are below 1e21 and equal to their shortest digits, for other numbers exactly from 1e-4 up and below 1e-9, and never for NaN and the infinities. The text, read as a decimal and rounded to the nearest double, is the number again, so floats of different numbers are different keys.", "quantifier": "all 2^64 bit patterns of a double, all choices of shortest digits that the standard allows", "why_tests_cant": "the texts agree for nearly all numbers that tests use; where they part is at the thresholds of two formatting algorithms.", "anchors": ["src/v8serialize/jstypes/_normalise_property_key.py::normalise_property_key"]}
{"id": "C76", "title": "A decode error points at the place where decoding failed", "statement": "The position of a DecodeV8SerializeError is in the data or just after its end. It is not before the value that could not be read, and at its tag only if there is none. For a tag that no reader handles it is just after that tag. The bytes well before it are not to blame: data that begins with the same bytes up to the position and is not shorter does not fail more than 3 bytes earlier. It is not the case that such data does not fail earlier at all, because a cut off varint is reported at its last byte and one that is too long at its first.", "quantifier": "all byte strings, and all pairs of byte strings that share the bytes before the position", "why_tests_cant": "tests check the positions of a few errors; that an error is never blamed on a place after which other data would be read differently is a statement about pairs of inputs.", "anchors": ["src/v8serialize/decode.py::ReadableTagStream.throw", "src/v8serialize/decode.py::ReadableTagStream.read_varint", "src/v8serialize/decode.py::ReadableTagStream.read_tag", "src/v8serialize/decode.py::ReadableTagStream.read_string_utf8", "src/v8serialize/_errors.py::DecodeV8SerializeError"]}
{"id": "C77", "title": "Dates without a time zone survive in the local time", "statement": "By default loads makes datetimes without time zone. Such a datetime has the numbers that the local clock shows at the point in time of the Date, with fold 1 just if the clock shows them for the second time; dumps writes a datetime without time zone as the point in time at which the local clock shows it, the first one if fold is 0 and the last one if it is 1. So the point in time survives loads and dumps, also in the hour that a clock shows twice, and every datetime survives dumps and loads.", "quantifier": "every clock that is set at most once in four days, by at most a day; every datetime and every double; object graphs with dates anywhere", "why_tests_cant": "tests run in the one time zone of the machine and do not hit the hours at which its clock is set.", "anchors": ["src/v8serialize/encode.py::WritableTagStream.write_js_date", "src/v8serialize/decode.py::ReadableTagStream.read_js_date", "src/v8serialize/decode.py::TagReader.deserialize_js_date", "src/v8serialize/encode.py::TagWriter.serialize_python_datetime"]}
{"id": "C78", "title": "loads accepts exactly the messages of a grammar, with exactly the meaning the grammar gives", "statement": "There is a declarative grammar of messages (what may follow each tag, in which order objects are made and numbered, where counts must agree) such that loads returns a value, with certain objects and contents, if and only if the grammar derives that value and those objects from the bytes; every other byte string is rejected with an exception. The grammar gives each byte string at most one meaning.", "quantifier": "every byte string; every value, all objects with contents and numbers; with and without the Node.js host object handler; versions 13 to 15", "why_tests_cant": "the set of byte strings is infinite, and tests of a hand-written reader with look-ahead cannot show that it accepts nothing else.", "anchors": ["src/v8serialize/decode.py::loads", "src/v8serialize/decode.py::ReadableTagStream.read_header", "src/v8serialize/decode.py::ReadableTagStream.read_jsmap", "src/v8serialize/decode.py::ReadableTagStream.read_js_object", "src/v8serialize/decode.py::ReadableTagStream.read_js_array_dense", "src/v8serialize/decode.py::ReadableTagStream.read_js_array_sparse", "src/v8serialize/decode.py::ReadableTagStream.read_js_error", "src/v8serialize/decode.py::ReadableTagStream.read_js_array_buffer", "src/v8serialize/decode.py::TagReader"]}
{"id": "C79", "title": "Nesting is limited by Python's stack only, and never changes a result", "statement": "With a limited number of stack frames loads and dumps give the same result or exception as with an unlimited number, or raise RecursionError. loads reads a message if and only if its nesting fits into the frames that are left; frames for as many levels as the message has bytes, or as the graph has objects and two more, are always enough. For every number of frames there are a message of three bytes per level that is not read and nested lists that are not written.", "quantifier": "every byte string and object graph; every number of frames left; every number of frames per kind of value", "why_tests_cant": "tests use data nested a few levels deep and the one recursion limit of the interpreter.", "anchors": ["src/v8serialize/decode.py::DefaultDecodeContext.decode_object", "src/v8serialize/encode.py::DefaultEncodeContext.encode_object", "src/v8serialize/decode.py::loads", "src/v8serialize/encode.py::dumps"]}
{"id": "C80", "title": "The views of a JSMap are sets of its keys and items, and JSSet compares with Python sets as a set", "statement": "keys(), items() and values() of a JSMap go through its entries in order and find keys by SameValueZero and values by equality. The keys of two JSMaps compare by inclusion, their items by inclusion with equal values, in any order. &, |, - and ^ of the keys give the set with just the members the operator says; <=, <, >= and > between a JSSet and a Python set are inclusion.", "quantifier": "every JSMap and JSSet made by any history of operations; every iterable and Python set on the other side; every notion of hash and equality that Python allows", "why_tests_cant": "tests use keys for which the equality of Python and the one of JavaScript agree.", "anchors": ["src/v8serialize/jstypes/jsmap.py::JSMap", "src/v8serialize/jstypes/jsmap.py::JSMap.__iter__", "src/v8serialize/jstypes/jsmap.py::JSMap.__getitem__", "src/v8serialize/jstypes/jsset.py::JSSet", "src/v8serialize/jstypes/jsset.py::JSSet.__contains__"]}
{"id": "C81", "title": "Filling containers in place does not show in the result", "statement": "The decoder makes a container, records it and stores entries in it while nested values are still being decoded. The result is the same as if each container were put together apart and stored when complete: the same value, objects, object log and exceptions. Decoding a value changes no object that existed before.", "quantifier": "every byte string; every state in which a nested value is decoded; every nesting of containers and references to unfinished ones", "why_tests_cant": "tests have a few containers that hold themselves; that nothing else depends on how much of an enclosing container is filled cannot be seen from examples.", "anchors": ["src/v8serialize/decode.py::TagReader.deserialize_jsmap", "src/v8serialize/decode.py::TagReader.deserialize_jsset", "src/v8serialize/decode.py::TagReader.deserialize_js_object", "src/v8serialize/decode.py::TagReader.deserialize_js_array_dense", "src/v8serialize/decode.py::TagReader.deserialize_js_array_sparse", "src/v8serialize/jstypes/jsset.py::JSSet.__ior__", "src/v8serialize/jstypes/jsmap.py::JSMap.update"]}
{"id": "C82", "title": "The views of a JSObject are sets of its keys and items", "statement": "keys(), items() and values() of a JSObject or JSArray go through its properties in order without an exception. A value is in keys() if it names a property in JavaScript, in any spelling; membership in items() and values() is by key and equality. The keys of two objects compare by inclusion and their items by inclusion with equal values; &, |, - and ^ of keys() and another set give the set with just the members the operator says.", "quantifier": "every object made by any history of operations; every value as a key; every Python set of keys on the other side; every notion of hash and equality that Python allows", "why_tests_cant": "tests use the same spelling of a key on both sides.", "anchors": ["src/v8serialize/jstypes/jsobject.py::JSObject", "src/v8serialize/jstypes/jsobject.py::JSObject.__getitem__", "src/v8serialize/jstypes/jsobject.py::JSObject.__iter__", "src/v8serialize/jstypes/jsobject.py::JSObject.__len__", "src/v8serialize/jstypes/_normalise_property_key.py::normalise_property_key"]}
{"id": "C83", "title": "The exceptions of the package are ordinary Python objects", "statement": "Each class of exceptions can be called with the arguments that fit its parameters, and what is passed for a parameter is read back under its name. Attributes can be assigned, and two exceptions are equal if they have the same class and equal fields. A copy made by copy or pickle has the same class, args and attributes. All are subclasses of V8SerializeError, those of the buffer types also of JSArrayBufferError, and args begins with the message.", "quantifier": "every class, every call with any positional and keyword arguments, every later assignment of attributes", "why_tests_cant": "tests catch exceptions and read a field; none copies or pickles one.", "anchors": ["src/v8serialize/_errors.py::V8SerializeError", "src/v8serialize/_errors.py::UnhandledTagDecodeV8SerializeError", "src/v8serialize/_errors.py::NormalizedKeyError", "src/v8serialize/encode.py::UnhandledValueEncodeV8SerializeError", "src/v8serialize/encode.py::FeatureNotEnabledEncodeV8SerializeError", "src/v8serialize/_references.py::IllegalCyclicReferenceV8SerializeError", "src/v8serialize/jstypes/jsbuffers.py::BoundsJSArrayBufferError", "src/v8serialize/jstypes/jserror.py::JSError"]}
{"id": "C84", "title": "Containers can be copied", "statement": "copy.copy of a JSMap, JSSet, JSObject or JSArray is a container of its own with the same content. copy.deepcopy and pickle give a container with copies of the members in the same order, in which the copy of each key finds the copy of its value.", "quantifier": "every content made by any operations; every later sequence of operations on the copy, the original and others; every identity of the copied objects", "why_tests_cant": "the repository has no tests of copies.", "anchors": ["src/v8serialize/jstypes/jsmap.py::JSMap", "src/v8serialize/jstypes/jsset.py::JSSet", "src/v8serialize/jstypes/jsobject.py::JSObject", "src/v8serialize/jstypes/_equality.py::same_value_zero"]}
{"id": "C85", "title": "repr() of buffers and views is an expression for an equal one", "statement": "The text that repr() gives for bytes, bytearrays, memoryviews, a JSArrayBuffer or a view evaluates in Python to the same thing: the same bytes, the same limits, resizable, read-only and of the same class if it was. If the bytes are more than the settings allow, then the text is not valid Python, so that nobody uses a part for the whole by mistake.", "quantifier": "every content of every length; every option of the buffer and the view; every setting of maxstring, maxlevel and indent; every nesting level", "why_tests_cant": "the tests compare a few texts with literals; quoting and escaping depend on which bytes occur together.", "anchors": ["src/v8serialize/jstypes/_repr.py::JSRepr", "src/v8serialize/jstypes/jsbuffers.py::JSArrayBuffer", "src/v8serialize/jstypes/jsbuffers.py::JSArrayBufferView"]}
{"id": "C86", "title": "Wrapped primitives, RegExps and shared references are values", "statement": "== of JSPrimitiveObject, JSRegExp and V8SharedObjectReference is an equivalence: objects of one class are equal exactly if their tag, flags and text are the same and their numbers have the same value (a NaN equals only the same NaN object). Equal objects have equal hashes, and equal wrapped primitives, both or neither -0.0, are written as the same bytes. <, <=, > and >= are a linear order that agrees with == (wrapped numbers by value then tag, strings by code points, RegExps by source then flags); text against number and different classes raise TypeError, and NaN is never less or greater. No sequence of assignments and deletions of attributes changes a field of one of these, nor of a TagConstraint, where a second __init__ fails too.", "quantifier": "every value, tag, source, flags and identity of the objects in the fields; every hash function of Python; every sequence of assignments and deletions", "why_tests_cant": "the tests compare a few objects; laws of an equivalence or an order are about all pairs and triples.", "anchors": ["src/v8serialize/jstypes/jsprimitiveobject.py::JSPrimitiveObject", "src/v8serialize/jstypes/jsregexp.py::JSRegExp", "src/v8serialize/jstypes/_v8.py::V8SharedObjectReference", "src/v8serialize/constants.py::TagConstraint", "src/v8serialize/_pycompat/dataclasses.py::FrozenAfterInitDataclass"]}
{"id": "C87", "title": "JSMap takes the arguments of dict, JSSet those of set", "statement": "JSMap(*pos, **kw) has the entries that dict(*pos, **kw) would have, with SameValueZero for the keys and None for no source: those of the source (a mapping, an object with keys, or an iterable of pairs), then one for each keyword whatever its name. update(*pos, **kw) does the same to an existing JSMap. The first exception ends it. JSSet(iterable) has the members of the iterable, each once.", "quantifier": "every source of each kind, also failing ones; every keyword name; every earlier history of the JSMap", "why_tests_cant": "the tests use a few mappings and keywords, none named like a parameter.", "anchors": ["src/v8serialize/jstypes/jsmap.py::JSMap", "src/v8serialize/jstypes/jsset.py::JSSet"]}
{"id": "C88", "title": "A loop over a JSObject may change the object", "statement": "While a loop iterates over the keys of a JSObject or JSArray, its body may set and delete properties. Every property that was there at the start and is not taken away comes. No key comes twice, and no key comes that the object does not have at that moment. Changing the number of names while the loop is at the names is a RuntimeError, as for a dict. A loop that only overwrites values and deletes elements that have come sees exactly the keys of the start.", "quantifier": "every object that assignments and deletions can make, dense or sparse; every sequence of changes in the body, also those that make a dense array sparse", "why_tests_cant": "the tests never change an object while iterating over it.", "anchors": ["src/v8serialize/jstypes/jsobject.py::JSObject", "src/v8serialize/jstypes/jsarrayproperties.py::SparseArrayProperties", "src/v8serialize/jstypes/jsarrayproperties.py::DenseArrayProperties"]}
{"id": "C89", "title": "The recursion guard of repr() is per thread and always taken back", "statement": "repr() of a JSObject, JSArray, JSMap, JSSet, JSError or JSArrayBuffer, also of an instance of a subclass, shows the class and the parts, with '...' only for an object inside itself and below the last level. Which objects are being shown is kept in one set for all threads; still each thread gets the text that it gets alone, and afterwards its entries are gone, also if an exception was raised. The text of every cyclic structure ends.", "quantifier": "every structure of objects, also with objects of other classes whose __repr__ shows or fails; every number of threads and every order of their steps", "why_tests_cant": "tests run one thread and a few cycles; no test has a subclass.", "anchors": ["src/v8serialize/jstypes/_repr.py::RecursiveReprMixin", "src/v8serialize/jstypes/_repr.py::JSRepr", "src/v8serialize/jstypes/_repr.py::js_repr"]}
{"id": "C90", "title": "The texts of exceptions show message and fields", "statement": "str() of an exception of the package is its message, followed by each other parameter of its class once, with the present value of that attribute; without further parameters it is the message alone. repr() is the name of the class with all parameters and their present values; as a call it makes an exception with the same values. Neither raises.", "quantifier": "every class of exceptions; every call that makes one and every assignment of attributes afterwards; every repr() of values", "why_tests_cant": "tests look at a few messages.", "anchors": ["src/v8serialize/_errors.py::V8SerializeError", "src/v8serialize/_errors.py::NormalizedKeyError", "src/v8serialize/jstypes/jserror.py::JSError", "src/v8serialize/_references.py::ForwardReferenceError"]}
{"id": "C91", "title": "A write method that raises leaves a usable stream", "statement": "When a method of WritableTagStream raises, the bytes written before and the numbers given to objects before are unchanged, and no constraint on tags stays in force; this holds also when encode steps catch the exception and go on. If nothing of the value can be written, nothing of it is left in the stream: the method leaves the stream as it was.", "quantifier": "every stream; every method and arguments; every function that writes the nested values; every sequence of calls in which exceptions are caught; every depth", "why_tests_cant": "tests check that the exceptions are raised and then drop the stream.", "anchors": ["src/v8serialize/encode.py::WritableTagStream", "src/v8serialize/encode.py::TagConstraintRemover", "src/v8serialize/_references.py::SerializedObjectLog"]}
{"id": "C92", "title": "Loops that change the JSMap or JSSet they iterate over", "statement": "In a loop over a JSMap or JSSet whose body stores and deletes entries, everything that comes is in it at that moment, with the value it has then; a key that is not taken away comes at most once; the loop ends after at most as many rounds as there were entries; if only values are replaced every key comes once and in order. If the loop ends without RuntimeError, the keys that came are the keys that are in it at the end. A map that encode steps change while it is written is followed by the number of keys and values that were written.", "quantifier": "every history of changes before the loop; every sequence of changes in it; every time at which the dict is made anew", "why_tests_cant": "tests never change a map in a loop over it.", "anchors": ["src/v8serialize/jstypes/jsmap.py::JSMap", "src/v8serialize/jstypes/jsset.py::JSSet", "src/v8serialize/encode.py::WritableTagStream"]}
{"id": "C93", "title": "The kinds of binary data that loads takes", "statement": "What loads reads from an object depends on its bytes only, whatever its type: bytes, bytearray, array.array, memoryview or any other buffer. Every reader of ReadableTagStream gives for the object the result, the position and the exception that it gives for the bytes of the object; no reader returns a wrong value in silence.", "quantifier": "every item type of integers of any width, signed or not; items next to each other or spaced; every content; every position", "why_tests_cant": "tests read from bytes and bytearray objects, and at most from one memoryview of them.", "anchors": ["src/v8serialize/decode.py::Decoder", "src/v8serialize/decode.py::ReadableTagStream", "src/v8serialize/_pycompat/typing.py::is_readable_binary", "src/v8serialize/_pycompat/typing.py::get_buffer"]}
{"id": "C94", "title": "Indenting a repr changes its layout only", "statement": "With an indent of 0 or more, repr() of JSObject, JSArray, JSMap, JSSet and JSError gives the text it gives without an indent, except for spaces, line ends and commas before closing brackets. Every member has a line of its own, a container inside another has its own text moved to the right by the indent, and without an indent there is one line. repr() returns a text for every value, whatever the settings.", "quantifier": "every heap, cyclic or not; every indent, number of levels, fill value, limit and text of the values that are no containers", "why_tests_cant": "tests compare a few indented reprs of small objects on Python 3.12 only.", "anchors": ["src/v8serialize/jstypes/_repr.py::JSRepr", "src/v8serialize/jstypes/_repr.py::JSRepr.repr_JSArray", "src/v8serialize/jstypes/_repr.py::JSRepr.repr_JSError", "src/v8serialize/jstypes/_repr.py::JSRepr._join"]}
{"id": "C95", "title": "The text of a repr is the expression that evaluates to a copy", "statement": "repr() of JSObject, JSArray, JSMap, JSSet and JSError returns the text of one Python expression: calls of these classes with list and dict displays, keyword arguments and the texts of the values inside. For a value that is shown in full, this expression evaluates to a copy of the value, which is equal to it if there are no cycles. With an indent the text is the same expression with another layout.", "quantifier": "every heap, cyclic or not; every number of levels, limit, indent, and text of the values that are no containers", "why_tests_cant": "tests evaluate the reprs of a few small objects.", "anchors": ["src/v8serialize/jstypes/_repr.py::JSRepr", "src/v8serialize/jstypes/_repr.py::JSRepr.repr_JSArray", "src/v8serialize/jstypes/_repr.py::JSRepr.repr_JSMap", "src/v8serialize/jstypes/_repr.py::JSRepr.repr_JSError"]}
{"id": "C96", "title": "str() of array properties shows the longest runs of holes", "statement": "alternating_regions divides the elements of DenseArrayProperties and SparseArrayProperties into the longest runs of elements and of holes, in order, each with the index it starts at; iterating over them gives each element and hole once, in order; str() shows the elements by their repr() and each run of holes by its length. Both are the same for dense and sparse arrays with the same elements and length. Arrays that differ have different texts, if the texts of elements differ, are not empty, have no comma and do not begin with <.", "quantifier": "every dense or sparse array that is stored as it should be, of any length and with any elements", "why_tests_cant": "tests show a few small arrays.", "anchors": ["src/v8serialize/jstypes/jsarrayproperties.py::alternating_regions", "src/v8serialize/jstypes/jsarrayproperties.py::AbstractArrayProperties.__str__", "src/v8serialize/jstypes/jsarrayproperties.py::EmptyRegion", "src/v8serialize/jstypes/jsarrayproperties.py::OccupiedRegion"]}
