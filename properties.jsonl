{"id": "C01", "title": "Parsing always terminates", "statement": "RemotingMessage::parse returns (a value, an error or a panic) on every byte string: no loop in the parser runs forever, in particular neither the array-filling loops, nor the reshaping loop of multi-dimensional arrays, nor the top-level record loop, nor the recursion between objects.", "quantifier": "every finite byte string", "why_tests_cant": "a test only sees the inputs it runs; a hang hides in the inputs nobody wrote", "anchors": ["src/binary_parser/mod.rs:BinaryParser::deserialize", "src/binary_parser/mod.rs:parse_referenceables", "src/binary_parser/mod.rs:parse_array_single_object", "src/binary_parser/mod.rs:parse_binary_array"]}
{"id": "C02", "title": "Exactly which arrays make the parser panic", "statement": "RemotingMessage::parse panics only if the input contains a BinaryArray record of at least two dimensions all of whose element records can be read, but among them a null run of at least two elements, such that the number of values is not a multiple of the row size; and it does panic when such a record follows the header and complete records. In particular it never panics on an input without the BinaryArray record byte or without null-run record bytes, and the unreachable!() arm is never reached. (One would expect that it never panics: witness of a panic.)", "quantifier": "every finite byte string", "why_tests_cant": "absence of a panic on every input cannot be sampled", "anchors": ["src/binary_parser/mod.rs:parse_binary_array", "src/binary_parser/mod.rs:parse_member_reference"]}
{"id": "C03", "title": "An accepted message is complete", "statement": "Whenever parsing succeeds, the input is a 17-byte header, a body, and the MessageEnd byte 11 as its very last byte: everything was consumed, nothing trails the end record.", "quantifier": "every accepted byte string", "why_tests_cant": "must hold for every accepted input", "anchors": ["src/binary_parser/mod.rs:parse_remoting_message", "src/record/message_end.rs:MessageEnd"]}
{"id": "C04", "title": "The stream header is validated exactly", "statement": "A message is accepted only if it starts with record type 0, a root id that is not negative, major version 1 and minor version 0; each violation yields the error that names it; the header id is ignored: changing it never changes the result.", "quantifier": "every byte string, every root id, header id and version pair", "why_tests_cant": "2^128 headers", "anchors": ["src/record/serialization_header.rs:SerializationHeader::parse"]}
{"id": "C05", "title": "Every string handed out is valid UTF-8", "statement": "Every &str reachable from a parsed message (string values, class names, library names, member names, method and type names, call contexts) is the UTF-8 encoding of a sequence of Unicode scalar values.", "quantifier": "every accepted byte string, every string in the result at any depth", "why_tests_cant": "all byte sequences; a single missed sub-string is undefined behaviour in Rust", "anchors": ["src/data_type/length_prefixed_string.rs:LengthPrefixedString::parse", "src/binary_parser/mod.rs:BinaryParser::deserialize"]}
{"id": "C06", "title": "Every string is a slice of the input", "statement": "Every string reachable from a parsed message is a contiguous slice of the input buffer (zero copy; nothing is invented or concatenated).", "quantifier": "every accepted byte string, every string in the result", "why_tests_cant": "ranges over all inputs", "anchors": ["src/data_type/length_prefixed_string.rs:LengthPrefixedString::parse", "src/binary_parser/mod.rs:BinaryParser::deserialize"]}
{"id": "C07", "title": "An error points into the input", "statement": "Whenever parsing fails, the position carried by the error is a suffix of the input.", "quantifier": "every rejected byte string", "why_tests_cant": "ranges over all malformed inputs", "anchors": ["src/error.rs:Error", "src/binary_parser/mod.rs:BinaryParser::deserialize"]}
{"id": "C08", "title": "Length-prefixed strings round-trip", "statement": "A string of any length below 2^31 encoded with the 7-bit length prefix is read back exactly, with exactly the following bytes left over.", "quantifier": "every valid UTF-8 string shorter than 2^31 bytes, every continuation", "why_tests_cant": "lengths up to 2^31-1 and all contents", "anchors": ["src/data_type/length_prefixed_string.rs:LengthPrefixedString::parse_len"]}
{"id": "C09", "title": "Length prefixes: exactly which are accepted", "statement": "The string parser accepts a length prefix iff it has at most five groups and the fifth group has only its three low bits set (so lengths up to 2^31-1); over-long prefixes denote the same length as the minimal one; a prefix longer than the remaining input or invalid UTF-8 is a recoverable error.", "quantifier": "every byte string", "why_tests_cant": "the prefix space and the interaction with the remaining length are unbounded", "anchors": ["src/data_type/length_prefixed_string.rs:LengthPrefixedString::parse_len", "src/data_type/length_prefixed_string.rs:LengthPrefixedString::parse"]}
{"id": "C10", "title": "Integers round-trip", "statement": "Every i8/i16/i32/i64/u8/u16/u32/u64 written little-endian is read back as itself, consuming exactly its width; conversely whatever is read is in range for its type and is the value of exactly those bytes; too few bytes is an unrecoverable error naming the type.", "quantifier": "every value of every integer type, every continuation", "why_tests_cant": "2^64 values", "anchors": ["src/data_type/int64.rs:Int64::parse", "src/data_type/uint64.rs:UInt64::parse", "src/data_type/int32.rs:Int32::parse"]}
{"id": "C11", "title": "Floats, time spans and dates keep their bits", "statement": "The bit pattern of a Single or Double, and the 64 raw bits of a TimeSpan or DateTime, are preserved exactly.", "quantifier": "every bit pattern", "why_tests_cant": "2^64 patterns, including NaN payloads", "anchors": ["src/data_type/double.rs", "src/data_type/single.rs", "src/data_type/timespan.rs", "src/data_type/datetime.rs"]}
{"id": "C12", "title": "Booleans are strict", "statement": "A boolean is read from byte 0 (false) or 1 (true); every other byte is an unrecoverable error.", "quantifier": "every byte", "why_tests_cant": "exhaustive over the byte and every continuation", "anchors": ["src/data_type/boolean.rs:Boolean::parse"]}
{"id": "C13", "title": "Characters", "statement": "A CHAR is read as one byte, and its value is the Unicode scalar with that number (Latin-1). So every ASCII character round-trips, and no non-ASCII character does: its UTF-8 encoding is never read back as that character.", "quantifier": "every Unicode scalar value, every continuation", "why_tests_cant": "1.1 million characters", "anchors": ["src/data_type/char.rs:Char::parse"]}
{"id": "C14", "title": "Date-time ticks and kind", "statement": "ticks() and kind() split the 64 raw bits: ticks is the signed upper 62 bits, kind the lower two (1 = UTC, 2 = local, otherwise none), and together they determine the raw value when the kind is UTC or local.", "quantifier": "every i64", "why_tests_cant": "2^64 values", "anchors": ["src/value/date_time.rs:DateTime::ticks", "src/value/date_time.rs:DateTime::kind"]}
{"id": "C15", "title": "Message flags: which words are accepted", "statement": "A flag word is accepted iff at most one argument bit, at most one context bit and at most one of the no-return-value, void and return-value-in-array bits are set, an exception bit excludes argument and those return bits and the signature bit, and those return bits exclude the signature bit. (MS-NRBF also puts return-value-inline into the return category: the crate omits it, so contradictory words are accepted.)", "quantifier": "every 32-bit word", "why_tests_cant": "2^32 words", "anchors": ["src/record/message_flags.rs:MessageFlags::parse"]}
{"id": "C16", "title": "Ids are positive", "statement": "Object, library, metadata and reference ids are read as signed 32-bit numbers and accepted only if positive; zero or negative ids are unrecoverable errors (InvalidObjectId / InvalidLibraryId) at the position of the id; only the object id of a class record is reported as ExpectedClassInfo.", "quantifier": "every 32-bit word", "why_tests_cant": "2^32 words at each of the id positions", "anchors": ["src/combinator.rs:object_id", "src/combinator.rs:library_id"]}
{"id": "C17", "title": "Null runs are positive", "statement": "A null-run record is accepted only with a positive count and stands for exactly that many nulls; zero or negative counts are the error InvalidNullCount.", "quantifier": "every count", "why_tests_cant": "2^32 counts", "anchors": ["src/record/object_null_multiple.rs", "src/record/object_null_multiple_256.rs"]}
{"id": "C18", "title": "Primitive arrays have exactly the declared elements", "statement": "A successfully parsed ArraySinglePrimitive has exactly the declared number of elements, each of the declared type, in stream order; the elements round-trip.", "quantifier": "every element type, every list of elements, every continuation", "why_tests_cant": "every length and content", "anchors": ["src/binary_parser/mod.rs:parse_array_single_primitive", "src/record/array_single_primitive.rs", "src/record/member_primitive_untyped.rs"]}
{"id": "C19", "title": "Object and string arrays have the declared length", "statement": "A successfully parsed ArraySingleObject or ArraySingleString has at least the declared length, and exactly that length if the input has no null-run records; whatever exceeds the declared length is the rest of the null run that reaches it. (One would expect exactly the declared length: witness of an overshooting run.)", "quantifier": "every message and every array record in it", "why_tests_cant": "every mix of elements, references and null runs", "anchors": ["src/binary_parser/mod.rs:parse_array_single_object", "src/binary_parser/mod.rs:parse_array_single_string"]}
{"id": "C20", "title": "Rectangular arrays are reshaped row-major", "statement": "A multi-dimensional array without null runs yields nested arrays whose lengths at every level are the declared lengths and whose leaves, read in order, are the elements in stream order; with null runs the inner lengths are still the declared ones, and the outer length is what the number of elements requires, at least the declared one; an array without elements yields the empty array, whatever its outer length (where .NET has as many empty rows: witness).", "quantifier": "every list of dimension lengths, every list of elements of that size", "why_tests_cant": "every rank and every shape", "anchors": ["src/binary_parser/mod.rs:parse_binary_array"]}
{"id": "C21", "title": "Overflowing dimensions are rejected up front", "statement": "If the product of the declared dimension lengths does not fit usize (32 or 64 bits, evaluated left to right) the array is rejected with InvalidLength before any element is read; otherwise exactly that product of element records is read.", "quantifier": "every list of lengths", "why_tests_cant": "every rank", "anchors": ["src/binary_parser/mod.rs:parse_binary_array"]}
{"id": "C22", "title": "Lower bounds do not affect the result", "statement": "The lower bounds of an offset array do not influence the parsed value: two messages that differ only in (valid) lower bounds parse to the same value; a negative lower bound is rejected.", "quantifier": "every pair of lower-bound lists", "why_tests_cant": "every rank and all bounds", "anchors": ["src/record/binary_array.rs:BinaryArray::parse", "src/binary_parser/mod.rs:parse_binary_array"]}
{"id": "C23", "title": "A ClassWithId record is never accepted", "statement": "In no reachable parser state is a record accepted that starts with ClassWithId, whatever its metadata id refers to; at the top level it fails with MissingMetadataId, or with InvalidMetadataId if it names its own id. (One would expect that an object may reuse the metadata of an earlier object: the table is never filled.)", "quantifier": "every parser state reachable, every record", "why_tests_cant": "ranges over all histories", "anchors": ["src/binary_parser/mod.rs:parse_classes", "src/record/class_with_id.rs"]}
{"id": "C24", "title": "Duplicate object ids: the last one wins", "statement": "A message whose last record carries the root id yields the value of that record, no matter whether earlier records carry the same id; duplicates are accepted, and DuplicateObjectId is never produced.", "quantifier": "every message", "why_tests_cant": "ranges over all messages", "anchors": ["src/binary_parser/mod.rs:parse_classes", "src/binary_parser/mod.rs:parse_referenceable", "src/error.rs:ErrorInner::DuplicateObjectId"]}
{"id": "C25", "title": "Library ids are declared once", "statement": "A second BinaryLibrary record with an id that is already known is an unrecoverable DuplicateLibraryId error, and a class that names an undeclared library is MissingLibraryId.", "quantifier": "every parser state, every library record", "why_tests_cant": "every history of library records", "anchors": ["src/binary_parser/mod.rs:parse_binary_library", "src/binary_parser/mod.rs:parse_classes"]}
{"id": "C26", "title": "A library in front of a record", "statement": "A BinaryLibrary record with a new id in front of a class record is registered and otherwise does not matter; in front of any other top-level record it makes the message fail with DuplicateLibraryId. (One would expect that a library may precede any record; the failed attempt to read a class has already registered it.)", "quantifier": "every parser state, library record and following record", "why_tests_cant": "every continuation", "anchors": ["src/binary_parser/mod.rs:parse_referenceable", "src/binary_parser/mod.rs:parse_binary_library"]}
{"id": "C27", "title": "A reference resolves to the record with its id", "statement": "The value a member reference is replaced with is the value of the record carrying that id: either one already registered under that id or the next record in the stream, which must carry that id. So referenced records are read depth first: the record of a reference must come before the records of later references, and the same records in breadth-first order are rejected, as are records of an inline object's references that come after the object around it.", "quantifier": "every reference, every state, every continuation", "why_tests_cant": "every history", "anchors": ["src/binary_parser/mod.rs:resolve_members"]}
{"id": "C28", "title": "A reference takes its object away", "statement": "Of two references to the same object in an array, the first takes the object with that id from the table or from the stream; the second is resolved exactly by a further record with the same id that follows. (One would expect that both denote the object: witness of a rejected message with a shared reference.)", "quantifier": "every message", "why_tests_cant": "ranges over all object graphs", "anchors": ["src/binary_parser/mod.rs:resolve_members"]}
{"id": "C29", "title": "What a failed attempt leaves behind", "statement": "A record that is attempted and rejected may influence what is parsed afterwards (the top-level loop runs twice; witness: a message that is accepted although it is not a sequence of records), but only so: the attempt adds or replaces at most one object and forgets no library, and whatever is accepted is a message of the grammar or was accepted by a second attempt at the rejected record with such a table. Without a MemberReference record in the input, exactly the messages of the grammar are accepted.", "quantifier": "every parser state, every input", "why_tests_cant": "ranges over all histories", "anchors": ["src/binary_parser/mod.rs:parse_referenceables", "src/binary_parser/mod.rs:parse_remoting_message"]}
{"id": "C30", "title": "Typed primitive members", "statement": "A class with primitive members is read back with exactly the encoded values, provided that no member encoding starts with the byte 12, the BinaryLibrary record type. (Without that condition a member can be misread or rejected: witnesses of both.)", "quantifier": "every class, every list of primitive members", "why_tests_cant": "every value of every type", "anchors": ["src/binary_parser/mod.rs:parse_member_reference", "src/binary_parser/mod.rs:parse_binary_library"]}
{"id": "C31", "title": "The grammar is accepted (completeness)", "statement": "Every message derivable in the declarative record grammar (libraries, classes, arrays, strings, references in depth-first order) is accepted and yields the value the derivation assigns.", "quantifier": "every derivation", "why_tests_cant": "infinitely many messages of every shape and depth", "anchors": ["src/binary_parser/mod.rs:parse_classes", "src/binary_parser/mod.rs:parse_arrays", "src/binary_parser/mod.rs:parse_referenceable"]}
{"id": "C32", "title": "Only the grammar is accepted (soundness)", "statement": "Whenever a record is accepted there is a derivation of it in the declarative grammar with the same value, the same remaining input and the same table of objects and libraries.", "quantifier": "every byte string, every state", "why_tests_cant": "every accepted input", "anchors": ["src/binary_parser/mod.rs:parse_classes", "src/binary_parser/mod.rs:parse_arrays", "src/binary_parser/mod.rs:parse_referenceable"]}
{"id": "C33", "title": "Inline method calls round-trip", "statement": "A method call with inline arguments (any list of primitive, null and string values) and an optional call context is read back exactly: method name, type name, context and arguments in order.", "quantifier": "every method call with inline arguments", "why_tests_cant": "every argument list", "anchors": ["src/record/binary_method_call.rs", "src/binary_parser/mod.rs:parse_method_call"]}
{"id": "C34", "title": "Inline method returns round-trip", "statement": "A method return with inline return value, call context and arguments is read back exactly.", "quantifier": "every method return with inline content", "why_tests_cant": "every content", "anchors": ["src/record/binary_method_return.rs", "src/binary_parser/mod.rs:parse_method_return"]}
{"id": "C35", "title": "Arguments come from the place the flags name", "statement": "With ARGS_IS_ARRAY the arguments are the call array; with ARGS_IN_ARRAY they are its first element, which must be an array; otherwise the inline arguments if any. If the named place is missing the message fails with InvalidArgs, and with no argument flag the arguments are absent.", "quantifier": "every flag word, call array and inline argument list", "why_tests_cant": "every combination", "anchors": ["src/binary_parser/mod.rs:parse_method_call", "src/binary_parser/mod.rs:parse_method_return"]}
{"id": "C36", "title": "The call array carries the root id", "statement": "A call array whose object id differs from the root id of the header is rejected with InvalidCallArrayId; without a root id no call array is accepted.", "quantifier": "every root id, call array and state", "why_tests_cant": "every id pair", "anchors": ["src/binary_parser/mod.rs:parse_call_array"]}
{"id": "C37", "title": "The root object is returned", "statement": "For a message without method record, the result is null if the header has root id 0, otherwise the registered object with the root id, and MissingRootObject if there is none.", "quantifier": "every message without method record", "why_tests_cant": "every message", "anchors": ["src/binary_parser/mod.rs:parse_remoting_message"]}
{"id": "C38", "title": "Which errors can occur", "statement": "The errors Eof, DuplicateObjectId and UnresolvableMemberReference are never returned.", "quantifier": "every byte string", "why_tests_cant": "absence over all inputs", "anchors": ["src/binary_parser/mod.rs:BinaryParser::deserialize", "src/error.rs:ErrorInner"]}
{"id": "C39", "title": "Members are paired with their names", "statement": "Each member of a parsed object has a declared name, names are unique in the result, and without null runs and repeated names the i-th declared name is bound to the i-th member. With null runs, every member record stands for as many values as its run is long, after those of the earlier records, and the values are paired with the names from the left.", "quantifier": "every class record", "why_tests_cant": "every member list", "anchors": ["src/binary_parser/mod.rs:parse_classes"]}
{"id": "C40", "title": "Deserialising a generic list uses its size", "statement": "Deserialising a List<T> object into a sequence yields exactly the first _size items, and succeeds exactly if 0 <= _size <= number of items + 1 and these items deserialise. (One would expect the bound without the + 1: witness.)", "quantifier": "every list object, every element type", "why_tests_cant": "every size and content", "anchors": ["src/value/object.rs:ListDeserializer"]}
{"id": "C41", "title": "Boxed primitives deserialise like the primitive", "statement": "A boxed System.Int32 (etc.) object with the single member m_value deserialises to the same result as the bare value; any other member set is an error.", "quantifier": "every value, every boxed class", "why_tests_cant": "every value of every type", "anchors": ["src/value/object.rs:ObjectDeserializer::deserialize_any", "src/data_type/mod.rs:impl_primitive"]}
{"id": "C42", "title": "Null and Option", "statement": "A null member deserialises into None and a non-null member into Some of what the value itself deserialises into; at the root, from_slice::<Option<T>> succeeds only on null messages.", "quantifier": "every value and every target type", "why_tests_cant": "every value", "anchors": ["src/value/mod.rs:ValueDeserializer::deserialize_option", "src/remoting_message.rs:RemotingMessage"]}
{"id": "C43", "title": "from_slice rejects method messages", "statement": "from_slice on a message that is a method call or return is an error for every target type, and on a malformed message it is the parse error.", "quantifier": "every message, every target type", "why_tests_cant": "every message", "anchors": ["src/lib.rs:from_slice", "src/remoting_message.rs:to_deserializer"]}
{"id": "C44", "title": "Arrays deserialise element by element, none dropped", "statement": "Deserialising an array into a sequence of T yields the deserialised elements in order; into a fixed-size array or tuple it fails unless the lengths agree: no element is ever silently dropped.", "quantifier": "every array value, every element type", "why_tests_cant": "every length", "anchors": ["src/value/mod.rs:ArrayDeserializer"]}
{"id": "C45", "title": "Nothing may follow an accepted message", "statement": "If a byte string is a message of the record grammar, then the same bytes followed by any further bytes are rejected with TrailingData pointing at exactly these bytes, unless they complete a BinaryLibrary record that is unfinished at the end of the message, which needs the byte 12 in it. (Witness that this exception occurs.)", "quantifier": "every accepted message, every non-empty continuation", "why_tests_cant": "every message", "anchors": ["src/binary_parser/mod.rs:parse_remoting_message"]}
{"id": "C46", "title": "Nesting depth", "statement": "The parser's functions nest at most as deeply as the input is long plus one; the value of an accepted input is nested at most twice as deeply as the input is long (at most as deeply if no failed record is tried a second time). Neither is bounded by a constant: for every n > 0 there is an accepted message of 13 n + 19 bytes whose value is nested n deep (so the native stack is exhausted by a long enough input).", "quantifier": "every input; every depth", "why_tests_cant": "every depth", "anchors": ["src/binary_parser/mod.rs:parse_classes", "src/binary_parser/mod.rs:parse_member_reference"]}
{"id": "C47", "title": "Size of the result", "statement": "The number of objects, strings and primitive values in the result of an accepted input is at most twice the length of the input, and at most its length if no failed record is tried a second time. Nulls are not bounded by the length alone: for every 0 < k < 2^31 there is an accepted message of 32 bytes whose value is an array of k nulls; but with nulls there are at most 2 * (2^31 - 1) values (arrays not counted) per byte, and half of that if no failed record is tried a second time.", "quantifier": "every accepted message", "why_tests_cant": "every message", "anchors": ["src/binary_parser/mod.rs:resolve_members", "src/binary_parser/mod.rs:parse_array_single_object"]}
{"id": "C48", "title": "Struct fields do not depend on member order", "statement": "Deserialising a value into any type gives the same result for every order in which the hash maps of its objects, at any depth, enumerate their members.", "quantifier": "every value, every reordering of members at every depth, every target type", "why_tests_cant": "the hash map order is random per process", "anchors": ["src/value/object.rs:ObjectDeserializer::deserialize_struct"]}
{"id": "C49", "title": "Single records round-trip as messages", "statement": "For every id and string, every primitive array and every null root, the message consisting of the header, that record and the end marker parses to that value.", "quantifier": "every root id, every string, every primitive list", "why_tests_cant": "every content", "anchors": ["src/binary_parser/mod.rs:parse_remoting_message", "src/binary_parser/mod.rs:parse_referenceable"]}
{"id": "C50", "title": "Typed members must have the declared class", "statement": "An object stored as a member record declared with class type C of library L is accepted only if its class name and library are C and L (nulls are accepted as well), otherwise the message fails. Without null runs and repeated names, this object or null is the value of the declared member; with null runs, it stands at the position that the runs before it determine.", "quantifier": "every typed member, every object", "why_tests_cant": "every pair of classes", "anchors": ["src/binary_parser/mod.rs:parse_member_reference"]}
{"id": "C51", "title": "Deserialising ends", "statement": "Deserialising a value or a message into any type ends: no input makes the deserialiser loop.", "quantifier": "every value, every byte string, every target type", "why_tests_cant": "every input", "anchors": ["src/value/mod.rs:ArrayDeserializer", "src/value/object.rs:ListDeserializer", "src/lib.rs:from_slice"]}
{"id": "C52", "title": "Integers are converted exactly or not at all", "statement": "An integer of any NRBF integer type becomes a Rust integer of any type exactly if it is in the range of that type, and is then unchanged; otherwise it is an error: no wrapping or truncation.", "quantifier": "every integer value, every integer type", "why_tests_cant": "every number and pair of types", "anchors": ["src/value/mod.rs:ValueDeserializer::deserialize_any"]}
{"id": "C53", "title": "Structs are filled by name", "statement": "An object becomes a struct exactly if every field has a member of the same name that deserialises into the type of the field, or is an Option without such a member (None), and every other member can be ignored; the values are those of the members of the same name.", "quantifier": "every object, every struct type", "why_tests_cant": "every combination of members and fields", "anchors": ["src/value/object.rs:ObjectDeserializer::deserialize_struct"]}
{"id": "C54", "title": "What becomes what", "statement": "Booleans come only from booleans, &str only from strings, String from strings, decimals and characters, () only from null, floats from floats and integers, char from characters, one-character strings and decimals that print as one character; objects become scalars only if they are boxed primitives; enums cannot be deserialised.", "quantifier": "every value, every scalar type", "why_tests_cant": "every value", "anchors": ["src/value/mod.rs:ValueDeserializer::deserialize_any", "src/value/object.rs:ObjectDeserializer::deserialize_any"]}
{"id": "C55", "title": "From bytes to Rust values", "statement": "from_slice on a message of the grammar gives what its value deserialises into: a string message is its string, an array of Int32 the same numbers in order, a message without root object None.", "quantifier": "every message of the grammar, every target type", "why_tests_cant": "every content", "anchors": ["src/lib.rs:from_slice"]}
{"id": "C56", "title": "Error texts identify the reason", "statement": "Two errors with the same Display text have the same reason, and no text is empty.", "quantifier": "every pair of error reasons", "why_tests_cant": "the reasons carry record and primitive types: all combinations", "anchors": ["src/error.rs:ErrorInner", "src/enumeration.rs", "src/record/mod.rs:RecordType"]}
{"id": "C57", "title": "Every message can be written and is read back", "statement": "For every message with storable values there is a byte string (given by an explicit writer following MS-NRBF) from which the crate reads exactly that message; what was read from any input can be written and is read again as the same message.", "quantifier": "every message, with values nested to any depth, any calls and returns; every accepted input", "why_tests_cant": "all values and all nestings", "anchors": ["src/binary_parser/mod.rs:BinaryParser::deserialize", "src/remoting_message.rs:RemotingMessage"]}
{"id": "C58", "title": "Deserialising is exactly a declared relation", "statement": "A value deserialises into a Rust type with a given result if and only if a small set of rules says so: which value becomes which scalar, how sequences, lists, tuples, newtypes, maps, structs, options and boxed primitives are taken apart, and what may be ignored. The result is unique. With from_slice the same holds for every accepted input, except that at the root an Option is read only from null.", "quantifier": "every value the parser can produce, every type built from scalars, options, sequences, tuples, maps, structs and newtypes, every result", "why_tests_cant": "all values, all types, both directions", "anchors": ["src/value/mod.rs:ValueDeserializer", "src/value/mod.rs:ArrayDeserializer", "src/value/object.rs:ObjectDeserializer", "src/value/object.rs:ListDeserializer", "src/lib.rs:from_slice"]}
{"id": "C59", "title": "Stored Rust values are read back", "statement": "Every Rust value of a supported type (scalars, strings, options, vectors, tuples, maps, structs, newtypes, nested to any depth) can be stored as an NRBF message from which from_slice at this type gives back exactly that value.", "quantifier": "every type and every value of it that fits the format", "why_tests_cant": "all types and values, any nesting", "anchors": ["src/lib.rs:from_slice", "src/value/mod.rs", "src/value/object.rs"]}
{"id": "C60", "title": "Exactly which input is accepted, and which error is reported where", "statement": "For every byte string, the parser accepts it with a given content if and only if the declared judgement Accepted holds, and rejects it with a given reason at a given position if and only if the declared judgement Rejected holds; the judgements follow the record grammar and say for each field which reason its absence has, which errors are final, which let another record type be tried, and what a failed attempt leaves in the tables. What is neither accepted nor rejected panics.", "quantifier": "every byte string, every content, every error reason and position", "why_tests_cant": "all malformed inputs: any number of records before the fault, any nesting", "anchors": ["src/binary_parser/mod.rs:BinaryParser::deserialize", "src/binary_parser/mod.rs", "src/record", "src/data_type", "src/error.rs"]}
{"id": "C61", "title": "Exactly which input makes the parser panic", "statement": "For every byte string, parsing it panics if and only if the declared judgement Panics holds: reading the records in order, at any depth (class members, array elements, referenced records, call arrays, records after a method record), comes upon a BinaryArray record whose element records can all be read and resolved but whose values do not fill whole rows. Every input is exactly one of: accepted, rejected with an error, panicking. from_slice panics on the same inputs, for every target type.", "quantifier": "every byte string, every target type", "why_tests_cant": "all inputs, any number of records before the array, any nesting; a fuzzer finds some panics but cannot show there is no other cause", "anchors": ["src/binary_parser/mod.rs:BinaryParser::deserialize", "src/binary_parser/mod.rs:parse_binary_array", "src/lib.rs:from_slice"]}
{"id": "C62", "title": "The amount of work: linearly many attempts, at most (and sometimes) quadratic time", "statement": "For every input, the number of attempts to read a record, the bytes consumed by them and the references looked up are together at most 100 times (the length of the input + 1): records are not read again and again, however they are nested. If a failed attempt costs at most the remaining bytes, the whole work is at most quadratic. The quadratic bound is reached by valid messages: in an array of bytes (BinaryArray) every byte 12 is tried as a BinaryLibrary, and if the bytes behind it look like a long name, they are validated as UTF-8 up to the first invalid byte, for each such place again; for every k up to 13 million there is an accepted message of at most 20k + 3178610 bytes with 5k(k-1) such steps.", "quantifier": "all byte strings; all prices of failed attempts; for the lower bound all k up to 13 million (the lengths of arrays and strings are 31-bit numbers)", "why_tests_cant": "an asymptotic bound over all inputs; timing tests only sample, and would not find the slow family", "anchors": ["src/binary_parser/mod.rs:parse_binary_library", "src/binary_parser/mod.rs:parse_member_reference", "src/binary_parser/mod.rs:parse_referenceable", "src/data_type/length_prefixed_string.rs:LengthPrefixedString::parse"]}
{"id": "C63", "title": "The result does not depend on the pointer width", "statement": "On input in which no BinaryArray head has lengths one of whose partial products (from the left) needs more than 32 but none more than 64 bits, a 32-bit and a 64-bit build return the same content, the same error or panic alike, and from_slice succeeds with the same results. A message read by a 32-bit build is read alike by a 64-bit build; the converse holds below 4 GiB unless an array has a zero length. (The exception is real: 131072 x 131072 x 0 bytes is an empty array on 64 bits, InvalidLength on 32.)", "quantifier": "every input, every content, both widths, every target type", "why_tests_cant": "all inputs on two platforms; tests run on one", "anchors": ["src/binary_parser/mod.rs:parse_binary_array", "src/value/object.rs:ListDeserializer"]}
{"id": "C64", "title": "The text of a from_slice error is determined by value, type and member order", "statement": "When from_slice fails, the text of the error is: 'parsing error: ' and the text of the parse error for malformed data; 'invalid type: method call/return, expected \u2026' for method messages; and otherwise the one that names the first offending element, or one of the offending members (which one depends on the enumeration order of the hash map and on nothing else), or the first missing field, or the wrong length, as stated by a declarative relation between value, Rust type and report. Exactly these reports occur; a value has a report exactly if it cannot be read.", "quantifier": "every input, every Rust target type of the universe (with type and field names), every enumeration order of members", "why_tests_cant": "all values x all types x all hash orders; tests check two texts", "anchors": ["src/value/mod.rs:ValueDeserializer", "src/value/mod.rs:ExpectedInArray", "src/value/object.rs:ObjectDeserializer", "src/value/object.rs:ListDeserializer", "src/data_type/mod.rs:impl_primitive", "src/remoting_message.rs:to_deserializer", "src/lib.rs:from_slice"]}
{"id": "C65", "title": "== on values and messages compares what they stand for", "statement": "For values and messages, == (the derived PartialEq) holds exactly if both have the same shape, the same class and library names, the same members (in any order) and equal leaves, where floats are equal if they are the same number (so both zeros are equal and NaN equals nothing) and decimals as rust_decimal compares them. It is symmetric and transitive, and a value or parsed message is equal to itself (hence to a second parse of the same bytes) exactly if no NaN is in it at any depth; the order in which members were inserted never matters; and a value without float zeros and decimals is equal only to itself up to member order, so that assert_eq with such a literal determines the result.", "quantifier": "all pairs and triples of values with integers in range and distinct member names, all messages returned by RemotingMessage::parse", "why_tests_cant": "values are trees of any depth; tests compare a few literals and never contain NaN or reordered members", "anchors": ["src/value/mod.rs:Value", "src/value/object.rs:Object", "src/remoting_message.rs:RemotingMessage"]}
{"id": "C66", "title": "What from_slice returns is of the type asked for, and its text was in the input", "statement": "Whenever from_slice::<T> succeeds, the result is a value of T (integers in range, tuples and structs with exactly their fields in order, maps with distinct keys, chars that are Unicode scalar values), every borrowed string (&str) in it is a contiguous slice of the input and valid UTF-8, and every owned string or key is a copy of a slice, a single character, or the text of a decimal.", "quantifier": "all byte strings, all target types built from the supported ones to any depth", "why_tests_cant": "target types and inputs are unboundedly nested; an example shows one string", "anchors": ["src/lib.rs:from_slice", "src/value/mod.rs:ValueDeserializer", "src/value/object.rs:ObjectDeserializer"]}
{"id": "C67", "title": "A truncated message is not taken for a complete one", "statement": "If a byte string is accepted, no proper beginning of it is a message of the record grammar, unless that beginning ends in an unfinished BinaryLibrary record (byte 12) which the rest completes; and if it contains no MemberReference record, such a beginning is not accepted. (Both exceptions are real: witnesses of an input and a continuation of it that are both accepted, with different contents.)", "quantifier": "all accepted byte strings and all their proper beginnings", "why_tests_cant": "every cut of every message has to be considered; the exceptions need a second attempt at a record or bytes with two readings", "anchors": ["src/binary_parser/mod.rs:parse_remoting_message", "src/binary_parser/mod.rs:parse_referenceables", "src/remoting_message.rs:RemotingMessage::parse"]}
{"id": "C68", "title": "Objects nobody refers to do not influence the result", "statement": "Records that leave the tables as they found them and do not refer to each other can stand in a message in any number and (if their ids are distinct) in any order: the result is the value of the last one with the root id, else the object the records before them left under the root id, else MissingRootObject (null for root id 0). Inserting a record whose id is neither the root id nor referred to later does not change the result of a message, method calls and returns included.", "quantifier": "all messages built this way, all numbers, orders and contents of the records", "why_tests_cant": "the number, order and content of the records is unbounded, and each one is parsed with all the earlier ones in the object table", "anchors": ["src/binary_parser/mod.rs:parse_referenceables", "src/binary_parser/mod.rs:resolve_members", "src/binary_parser/mod.rs:parse_remoting_message"]}
{"id": "C69", "title": "A self-describing target type receives the value as it is", "statement": "from_slice into a type that asks for deserialize_any and keeps what it is given (as serde does for untagged enums and flattened structs) succeeds exactly with the image of the parsed value: numbers, chars and strings as they are, decimals as text, null as unit, arrays and the used part of generic lists as sequences in order, boxed primitives as the primitive, other objects as maps from their member names. It succeeds for the same messages as ignoring the value (IgnoredAny), and for every message that can be read at any type without structs.", "quantifier": "all inputs that parse to a value, all target types without structs", "why_tests_cant": "values nest without bound and the image is computed by mutual recursion of five deserializers", "anchors": ["src/value/mod.rs:deserialize_any", "src/value/object.rs:ObjectDeserializer", "src/value/object.rs:ListDeserializer", "src/value/mod.rs:ArrayDeserializer"]}
{"id": "C70", "title": "Data and types evolve independently", "statement": "If two messages parse to values that differ only in the order of object members and in members whose names a target type does not mention (at any depth, outside boxed primitives and generic lists, and whose values can be ignored in the sense of C69), then from_slice::<T> returns the same for both. A struct that gets a new optional field reads objects without such a member as before, with None for the field; a struct that loses a field reads an object as before if the member can be ignored, as every member that was read at a type without structs can.", "quantifier": "all pairs of values related this way, all types without maps and self-describing parts, all numbers and depths of added members", "why_tests_cant": "values, types and the set of added members are unbounded, and an unknown member is parsed by a different visitor than a known one", "anchors": ["src/value/object.rs:ObjectDeserializer", "src/value/object.rs:deserialize_struct", "src/lib.rs:from_slice"]}
{"id": "C71", "title": "It does not matter how a message is written", "statement": "NRBF leaves a writer many choices: object ids, whether an object or string is written in place or as a reference to a record that comes later, which class record is used and which member types are declared, whether nulls are written one by one or in runs of any of the three kinds, where library records are put, whether arguments are inline or in a call array. Whatever is chosen, if each referenced object is referenced once and its record comes after the referring record in the order of the references, and each library is declared once before it is used, then parsing the bytes gives exactly the message that was written. So bytes are never a way to write two different messages, and two ways to write the same message are the same to from_slice::<T> for every T. Every message that can be stored at all (C57) can be written in such a way.", "quantifier": "all messages, all values of any depth and size, all combinations of the writer's choices at every place, all target types", "why_tests_cant": "the set of encodings of even one small value is infinite, and the choices interact: the parser resolves references in a second step, with tables that earlier choices have filled", "anchors": ["src/lib.rs:from_slice", "src/binary_parser/mod.rs:deserialize", "src/binary_parser/mod.rs:parse_member_reference", "src/binary_parser/mod.rs:parse_classes", "src/binary_parser/mod.rs:parse_referenceable"]}
{"id": "C72", "title": "Equal values are deserialised equally", "statement": "If two messages compare equal with == (members in any order, 0.0 and -0.0 the same), then for every type T from_slice::<T> succeeds for both or for neither, and what it returns for one is equal to what it returns for the other (floats as numbers, maps without order). So parsed values that are equal can stand for each other. The exception are decimals, which compare equal as numbers but become strings: 1.0 and 1.00 are equal values and different strings; it is excluded by assuming that equal decimals in the two messages print the same.", "quantifier": "all pairs of messages that are equal, all target types, all values of any depth", "why_tests_cant": "== and deserialisation are separate recursive functions over unbounded values, and == identifies values with different bits and orders", "anchors": ["src/lib.rs:from_slice", "src/value/mod.rs:Value", "src/value/object.rs:Object", "src/remoting_message.rs:RemotingMessage"]}
{"id": "C73", "title": "A type can be widened", "statement": "If `from_slice` reads a message at one type, it also reads it at every wider type (an Option at the root only if the first type was one, since there it fails on everything but null, see C42), and the second result corresponds to the first. Wider means: an integer type with a greater range, a float type in place of an integer or the other float type, `String` for `&str` or `char`, `Option<T>` for a type without a value for null, `Vec<T>` for a tuple, array or newtype, and any of these inside options, vectors, maps, tuples and struct fields. Nothing else changes: same length, same keys, same field names; an integer becomes its cast.", "quantifier": "all byte strings, all pairs of types of which the second is wider (nested to any depth), all results, all platforms", "why_tests_cant": "Widening a field is the most common change to a Rust type; a unit test covers one pair of types and one message. It must hold for every nesting and every message.", "anchors": ["src/lib.rs:from_slice", "src/value/mod.rs:ValueDeserializer", "src/value/object.rs:ObjectDeserializer"]}
{"id": "C74", "title": "What every Deserialize implementation is told", "statement": "Deserialising works for every Deserialize implementation a user writes, and every one of them can rely on the same contract. A primitive, string or null value is one call of the matching visit method. Over an array, the k-th request for an element is answered with the k-th element, as the type asked for, and with None after the last; if the visitor returns successfully before it has had all elements, the result is an error that names both numbers. Over a generic list the same holds until size requests have succeeded, then the answer is None, and fewer than size successes are an error. Over the members of an object, each key is handed out once, then None, and the value request is answered with the value of the key handed out last. Keys are borrowed strings, but transient ones for a type that asks for a struct, which gets the members of every object whatever its class; any other type gets the members only of objects that are not boxed primitives or generic lists: a boxed primitive is the call for the primitive, and a box or list with the wrong members is an error with a fixed text. An option is None for null and otherwise Some of the same value. Which method the type asks for matters only for options and structs. A message with a method call or return is refused with the text of what the type expects, and a whole message is deserialised as its value, except that an option at the root counts as any.", "quantifier": "every value, every implementation of Deserialize and Visitor (any strategy of requests depending on all answers so far, any result type, recursive types), every deserializer method", "why_tests_cant": "The set of user-written Deserialize implementations is unbounded; tests use a few derived types.", "anchors": ["src/value/mod.rs:ValueDeserializer", "src/value/mod.rs:ArrayDeserializer", "src/value/object.rs:ObjectDeserializer", "src/value/object.rs:ListDeserializer", "src/remoting_message.rs:RemotingMessage"]}
{"id": "C75", "title": "from_slice has exactly one result for every orderly type", "statement": "For every Deserialize implementation, from_slice has at most one result. If the implementation is orderly - it returns after an error or after the end of a sequence or map, it asks for a value only right after its key, and an option does not ask for itself again - then from_slice has a result on every input on which the parser does not panic (the inputs of C61): it does not run forever, however deep or cyclic the types are.", "quantifier": "every input, every implementation of Deserialize, including recursive types", "why_tests_cant": "Quantifies over all user-written types and all inputs; non-termination cannot be observed by a test.", "anchors": ["src/lib.rs:from_slice", "src/value/mod.rs:ValueDeserializer", "src/value/object.rs:ObjectDeserializer"]}
{"id": "C76", "title": "Standard and derived types behave as their visitors prescribe", "statement": "The results this list states for the standard and derived Rust types (integers, floats, bool, char, &str, String, (), Option, Vec, arrays, tuples, maps, structs, newtypes, enums, IgnoredAny, a self-describing type, and the crate's boxed primitives) are exactly what follows from running their Deserialize implementations - which method they call and what each visitor method does request by request - against the crate's deserializers: from_slice::<T> returns r if and only if that run ends in r, with the same value or the same error text. These types are orderly, so C75 applies to them: from_slice ends on every input on which the parser does not panic.", "quantifier": "every input, every value, every type built from those constructors, every result", "why_tests_cant": "An equivalence over all values and an infinite family of types; a test compares single pairs.", "anchors": ["src/value/mod.rs:ValueDeserializer", "src/value/object.rs:ObjectDeserializer", "src/data_type/mod.rs:impl_primitive", "src/lib.rs:from_slice"]}
{"id": "C77", "title": "The crate treats what a type makes of the data as opaque", "statement": "Two Deserialize implementations that do the same in different ways - they ask for corresponding types at the same points, and make corresponding values of corresponding answers and of the scalars and names that are in the message - get corresponding results from from_slice: both a value, and corresponding ones, or both an error; and it ends for one if and only if it ends for the other. So: what a type would make of scalars or names that are not in the message has no influence on the result; a property of values that every visitor method preserves holds for what from_slice returns; and a type that is read as another one and then converted gets the converted result, wherever it occurs.", "quantifier": "every input, all pairs of implementations of Deserialize, every correspondence between their values, every result", "why_tests_cant": "It ranges over all types users can write and all relations between them (relational parametricity); a test has one type and one input.", "anchors": ["src/lib.rs:from_slice", "src/value/mod.rs:ValueDeserializer", "src/value/object.rs:ObjectDeserializer", "src/remoting_message.rs:RemotingMessage"]}
{"id": "C78", "title": "Numbers are converted to floats with correct rounding", "statement": "An integer value that is deserialised as f64 or f32, of whatever integer type and through whatever message, becomes the float nearest to it, ties to even (so it is exact up to 2^53 and 2^24), a larger integer never becomes a smaller float, and none of them becomes infinite. A Single deserialised as f64 is the same number, infinity or a NaN, with the same sign. A Double deserialised as f32 is the nearest number with ties to even, infinity if it is too large, keeps its sign, stays infinite or a NaN, and is exact if f32 has the number. With these conversions equal messages are deserialised equally (the assumption of C72 about casts holds).", "quantifier": "every integer value of every type, every bit pattern of Single and Double, every message", "why_tests_cant": "There are 2^64 integers and doubles; rounding goes wrong at ties, at powers of two, at subnormals and at the largest number, which samples rarely hit.", "anchors": ["src/value/mod.rs:ValueDeserializer", "src/lib.rs:from_slice"]}
{"id": "C79", "title": "Decimals come from texts in the input", "statement": "Every decimal number in a parsed message was read by rust_decimal from a text that is valid UTF-8 and a contiguous slice of the input. If rust_decimal reads back what it prints, every accepted message - whatever decimals it holds - can be written and is read again as the same message. An exact reader and printer of decimal notation meets this, and everything else the other properties ask of rust_decimal: it reads exactly the decimal notations of numbers that fit, prints decimal notation, in ASCII, and reads back what it prints.", "quantifier": "every input, every implementation of decimal numbers, every message; for the exact one every text and every number", "why_tests_cant": "The decimals of a message range over all texts that can be in it; no sample covers 96-bit mantissas with 29 scales and two signs.", "anchors": ["src/data_type/decimal.rs:Decimal", "src/value/mod.rs:ValueDeserializer", "src/lib.rs:from_slice"]}
{"id": "C80", "title": "What no type can tell apart", "statement": "Two accepted inputs give the same result with every Deserialize type (standard, derived or hand-written) exactly if their messages look the same: scalars that call the same visitor method with the same argument (an Int64, a TimeSpan and a DateTime with the same number look the same, and decimals with the same text), arrays of the same length with elements that look the same, objects with the same member names in the same order whose values look the same and whose classes both are not special (whatever their names and libraries) or have no library and the same name up to the first backtick; and any two method calls, or any two method returns. So renaming classes or libraries, or changing library versions, changes no result and no error text, unless system classes are concerned; and whatever else differs, some type sees it.", "quantifier": "every pair of accepted inputs, every family of Deserialize implementations (any index type, any result type, any visitors); the direction that different messages are told apart is for messages whose boxed primitives hold a primitive of their type", "why_tests_cant": "It ranges over all pairs of messages and all possible implementations of a trait; a test fixes both.", "anchors": ["src/value/mod.rs:ValueDeserializer", "src/value/object.rs:ObjectDeserializer", "src/remoting_message.rs:RemotingMessage", "src/lib.rs:from_slice"]}
{"id": "C81", "title": "How long an array can get", "statement": "No array in an accepted message, and no argument list of a method call or return, has more than (2^31 - 1)^2 elements, whatever its rank and whichever records it is made of. The bound is exact: for all k and n below 2^31 (n > 0) there is an input of 5k + 33 bytes that is accepted as an array of k * n nulls. (One would expect at most 2^31 - 1, the largest length a record can declare.) In particular every length is far from the limits of a 64-bit usize.", "quantifier": "all byte strings that are accepted, all arrays anywhere inside the message, all argument lists; all pairs of run count and run length", "why_tests_cant": "The bound depends on how declared lengths, null runs and reshaping interact; the extreme cases need gigabytes of input, so no test reaches them.", "anchors": ["src/binary_parser/mod.rs:parse_binary_array", "src/binary_parser/mod.rs:resolve_members", "src/binary_parser/mod.rs:parse_array_single_object", "src/binary_parser/mod.rs:parse_method_call"]}
{"id": "C82", "title": "Text in the result is linear in the input", "statement": "The text in an accepted message is bounded by the input. All strings, class names and member names of its values, together with the method name, type name and call context, have at most twice as many bytes as the input (at most as many, if no failed record is attempted a second time), even if one byte is added for every object, string and primitive value. Library names are the exception: a name is written once and stands in every object of that library, so their total is at most 2*n*n for an input of n bytes, and there are inputs of at most 18*n+29 bytes with n*n bytes of library names. What from_slice returns - strings, characters in UTF-8 and map keys - has at most four (two) bytes of text per byte of the input, provided the decimal library prints at most one character more than it reads.", "quantifier": "every accepted input, every message, every Rust type whose structs have distinct fields, every result of from_slice", "why_tests_cant": "A test can only measure the text of some inputs; that no input makes the owned strings of the result larger than a fixed multiple of the input needs an argument over all inputs.", "anchors": ["src/binary_parser/mod.rs:parse_classes", "src/binary_parser/mod.rs:parse_binary_library", "src/binary_parser/mod.rs:deserialize", "src/lib.rs:from_slice", "src/value/mod.rs:Value"]}
{"id": "C83", "title": "Each part of a message is handed out at most once, in order, and a result means all of it was", "statement": "While from_slice runs, the values it hands to the visitors of the type, and of the types this asks for, are parts of the message, each at most once and in the order in which they are written (an object or array before what is in it): the sequence of values handed out is a subsequence of the message in preorder. Nothing is handed out of a method call or return, or of a rejected input. An orderly type asks at most three times as often for an element, key or value as there are values in the message. If the types pass on every error and ask for the value of every key, as all standard and derived types do, then a successful result means that everything was handed out: no part of the message has been skipped silently. Boxed primitives are handed out as one value and generic lists by their first _size items, or else, if a struct asks for them, with all members like other objects.", "quantifier": "every input, every implementation of Deserialize and Visitor, every run", "why_tests_cant": "Whether something is visited twice, out of order or skipped depends on the interplay of every visitor strategy with every nesting of arrays, objects, lists and options.", "anchors": ["src/value/mod.rs:ValueDeserializer", "src/value/object.rs:ObjectDeserializer", "src/value/object.rs:ListDeserializer", "src/lib.rs:from_slice"]}
{"id": "C84", "title": "Deserialising nests as deeply as the message, whatever the type", "statement": "While from_slice runs, at no time are more visitors at work, one inside the other, than the message is nested deep, plus one for the innermost value, whatever the type (recursive types included; an option is not counted separately); every visitor that is handed a value returns before what follows is handed out, and in the end all have returned. So the depth is at most twice the length of the input plus one. A type that passes on every error and asks for every value, as all standard and derived types do, reaches the depth of every message it accepts without boxed primitives and generic lists; and there is no constant bound: even when the value is ignored (IgnoredAny), for every n > 0 there is an input of 13 n + 19 bytes for which n visitors are nested (so a long enough input exhausts the native stack here, too).", "quantifier": "every input, every implementation of Deserialize and Visitor, every run, every depth", "why_tests_cant": "Stack use is a maximum over all moments of a run, over all inputs and all (possibly recursive) types; tests see a few depths.", "anchors": ["src/value/mod.rs:ValueDeserializer", "src/value/object.rs:ObjectDeserializer", "src/lib.rs:from_slice"]}
{"id": "C85", "title": "The texts of errors, word for word", "statement": "The text of every parse error is the one listed for its reason. The text of every error of from_slice is: 'parsing error: ' and that text; 'invalid type: WHAT, expected WHICH'; 'invalid value: WHAT, expected WHICH'; 'invalid length N, expected WHICH'; 'missing field `NAME`'; 'duplicate field `NAME`'; 'invalid system class: NAME', where WHAT and WHICH are listed for every kind of value and type, and numbers are in decimal without leading zeros. The ranges of the integer types are the ones of Rust, in decimal. Equal texts mean the same kind of error, and for parse errors, lengths, fields and classes the same reason, length or name.", "quantifier": "every error, every input and Rust target type, every value and integer type", "why_tests_cant": "The texts depend on numbers and names without bound; a test compares a few of them.", "anchors": ["src/error.rs:ErrorInner", "src/lib.rs:from_slice", "src/value/mod.rs:ArrayDeserializer", "src/value/object.rs:ListDeserializer"]}
{"id": "C86", "title": "Which reasons parse errors can have", "statement": "The reasons of the errors that RemotingMessage::parse returns, and hence the texts, are exactly these: every declared reason except 'unexpected end of input', 'duplicate object ID', 'unresolvable member reference' and 'expected NULL'; of the reasons 'expected a RECORD' only those for the stream header and the message end; and that a decimal was expected if and only if some string is not a decimal. Each of them is returned for some input, and no input makes the parser return another one.", "quantifier": "every input, every declared error reason and every text", "why_tests_cant": "That a reason is never reported is a statement about all inputs; tests show only that a reason does occur.", "anchors": ["src/error.rs:ErrorInner", "src/binary_parser/mod.rs:BinaryParser::deserialize", "src/record"]}
{"id": "C87", "title": "Shared references and circles", "statement": "In every message (of the grammar of C31 and C32), at every point of it, no more references to an id have got their value than objects, arrays and strings with this id have been read completely, where the records are nested in one another. So if no two objects of a message have the same id, none of them is referenced more than once, and no object refers to itself, directly or through others: object graphs with shared or circular references have no accepted encoding with distinct ids. (An array that refers to the same string twice, or to itself, is rejected.)", "quantifier": "every message of the grammar, every id, every point of the message, every chain of references", "why_tests_cant": "It is about all object graphs and all orders of records; tests can only try a few graphs.", "anchors": ["src/binary_parser/mod.rs: BinaryParser::parse_member_reference, resolve_members, parse_referenceable", "src/binary_parser/mod.rs: BinaryParser::parse_referenceables"]}
{"id": "C88", "title": "Decimals cannot be deserialised from objects", "statement": "The crate has a Deserialize implementation for its (private) Decimal that reads a map with _flags, _hi32 and _lo32. From a map whose keys and values can be read it makes a number exactly if the first three entries are these three, in any order (what follows is not looked at): the 96 bit integer with the sign and scale of the flags; everything else is refused, and an error while reading a key or a value is passed on unchanged. But it asks for the values as an enum, which the crate's own deserializer never provides: from_slice with it returns an error on every input (on which the parser does not panic), whatever the message holds, an object with exactly these members included.", "quantifier": "every sequence of entries, every value of any depth, every input", "why_tests_cant": "It is about every map and every value; the implementation is not called by anything, so no test runs it.", "anchors": ["src/data_type/decimal.rs: impl Deserialize for Decimal"]}
{"id": "C89", "title": "Ids are nothing but names", "statement": "If the object ids and the library ids of a message are renamed, so that different ids stay different (whatever their size and order; 0, which is not an id, stays), the renamed message is accepted and has the same content, and from_slice::<T> returns the same for every T. The renamed message exists for every renaming, differs from the message only in the four bytes of the ids, and everything a writer can write (C71) can be renamed, as can every message of the grammar in which byte 12 stands only where a BinaryLibrary record begins. (A bare primitive member that starts with byte 12 is the exception: the ids after it decide whether it is taken for a library.)", "quantifier": "every message of the grammar (references, libraries, typed members, method calls and returns included), every renaming of the ids, every target type", "why_tests_cant": "Tests use the ids a writer happens to produce. That no id, no order of ids and no distance between them means anything is a statement about every message and every renaming.", "anchors": ["src/binary_parser/mod.rs: resolve_object, parse_binary_library", "src/data_type/int32.rs", "src/record/class_with_members_and_types.rs", "src/record/member_reference.rs: MemberReference", "src/common/class_info.rs"]}
{"id": "C90", "title": "The parser does not look into texts", "statement": "Strings, class names, member names and library names are passed through without being interpreted. Take any message and any translation of these four kinds of text which makes valid UTF-8 of storable length out of such text and keeps different member names different: there is the message in which the texts are replaced by their translations (of whatever length) and every other byte is the same; both are accepted, and the content of the second is the content of the first with its texts translated - strings, names of classes, members and libraries, names and contexts of method calls - and nothing else changed. In particular no text makes a message be rejected or panic. This holds for everything a writer writes, and for every other message in which byte 12 stands only where a library record begins. Both conditions are needed: after a bare primitive member that starts with byte 12, the length of a text decides whether a message is accepted, and if two member names fall together a value is lost.", "quantifier": "all messages (strict ones, and everything written), all translations of texts", "why_tests_cant": "tests use a handful of names and strings; that no text is special, whatever its content and length, is a statement about all pairs of messages", "anchors": ["src/data_type/length_prefixed_string.rs: LengthPrefixedString", "src/binary_parser/mod.rs: parse_classes, parse_member_reference", "src/record/binary_library.rs: BinaryLibrary", "src/value/object.rs: Object"]}
{"id": "C91", "title": "The parser does not look into numbers", "statement": "Booleans, characters, numbers, decimals, time spans and dates are passed through without being interpreted. Take any message and any translation of such values which keeps their types and turns nothing into something that starts with byte 12: there is the message in which the encodings of these values are replaced by encodings of the same type of their translations and every other byte is the same; both are accepted, and the content of the second is the content of the first with these values translated and nothing else changed. In particular no number makes a message be rejected or panic, none is changed on the way, and members, elements of all kinds of arrays and inline arguments and return values are treated alike. This holds for everything a writer writes, and for every other message in which byte 12 stands only where a library record begins. The exception is real: a Byte member may be 11 or 13, but 12 is rejected where what follows it can be read as the rest of a library record.", "quantifier": "all messages (strict ones, and everything written), all type-preserving translations of primitive values", "why_tests_cant": "tests use a handful of numbers in a few places; that no number is special anywhere is a statement about all pairs of messages", "anchors": ["src/record/member_primitive_untyped.rs: MemberPrimitiveUnTyped", "src/record/member_primitive_typed.rs: MemberPrimitiveTyped", "src/binary_parser/mod.rs: parse_member_reference, parse_array_single_primitive", "src/record/value_with_code.rs: ValueWithCode"]}
{"id": "C92", "title": "from_slice does not look into texts", "statement": "If two messages differ only in their texts (contents of strings, names of classes, members and libraries), then from_slice succeeds for one at a type exactly if it succeeds for the other at the type with its field names translated, and the results differ in the same texts only. No string, class or member name is special, except those the serde layer documents: texts of exactly one character (readable as char), the names of boxed primitives and of List, and the member names m_value, _items, _size and _version.", "quantifier": "all messages, all translations of their texts that respect these exceptions and keep member names apart, and all types with distinct field names", "why_tests_cant": "tests use a handful of strings and names; that no other text (\"null\", \"123\", an empty string, a class called like a keyword) changes what is read concerns every text at once", "anchors": ["src/value/mod.rs:ValueDeserializer", "src/value/object.rs:ObjectDeserializer", "src/remoting_message.rs:RemotingMessage", "src/lib.rs:from_slice"]}
