{"id": "C01", "title": "Writer output is exactly the concatenation of what was written", "statement": "After any sequence of BitStreamWriter calls, failing calls included, `bitposition` equals the number of bits appended by the successful calls, `byte_array` holds exactly those bits packed most-significant-bit first with the unused low bits of the last byte zero, and its length is bitposition/8 rounded up.", "quantifier": "every finite sequence of write_* / alignto calls with arbitrary arguments, starting from a new writer", "why_tests_cant": "The byte content depends on the bit offset left behind by every earlier call; the offset/length combinations over unbounded call sequences cannot be enumerated.", "anchors": ["compiler/extensions/python/runtime/src/zserio/bitwriter.py: BitStreamWriter._write_bits, write_bits, write_signed_bits, write_varint*, write_bytes, write_string, write_bitbuffer, alignto, byte_array, bitposition"]}
{"id": "C02", "title": "Later writes never alter earlier bits", "statement": "Once a bit has been written, no later call on the same writer, successful or failing, changes it; the bit position never decreases.", "quantifier": "every writer state and every further sequence of calls", "why_tests_cant": "The last byte is updated in place, so a corruption needs a particular offset, length and sign; only a proof over all of them settles it.", "anchors": ["compiler/extensions/python/runtime/src/zserio/bitwriter.py: BitStreamWriter._write_bits (last-byte OR), write_bytes, write_bitbuffer"]}
{"id": "C03", "title": "Fixed-width unsigned round trip", "statement": "For every n in 1..64 and every value in [0, 2^n-1], write_bits(value, n) at any bit position, followed by anything, and read_bits(n) from that position returns value and advances the reader by exactly n bits.", "quantifier": "all widths, all values of the width, all preceding and following bits", "why_tests_cant": "2^64 values times 8 alignments times widths is beyond sampling; the shift amount differs per alignment and width.", "anchors": ["compiler/extensions/python/runtime/src/zserio/bitwriter.py: write_bits, write_bits_unchecked, _write_bits", "compiler/extensions/python/runtime/src/zserio/bitreader.py: read_bits, read_bits_unchecked"]}
{"id": "C04", "title": "Fixed-width signed round trip (two's complement)", "statement": "For every n in 1..64 and every value in [-2^(n-1), 2^(n-1)-1], write_signed_bits then read_signed_bits(n) returns value, and the written bits are the n-bit two's complement of value.", "quantifier": "all widths, all signed values of the width, all positions", "why_tests_cant": "Sign extension in the first partial byte interacts with the free bits of the last byte for each alignment.", "anchors": ["compiler/extensions/python/runtime/src/zserio/bitwriter.py: write_signed_bits, write_signed_bits_unchecked, _write_bits(signed=True)", "compiler/extensions/python/runtime/src/zserio/bitreader.py: read_signed_bits, read_signed_bits_unchecked"]}
{"id": "C05", "title": "Out-of-range values are rejected and leave the writer untouched", "statement": "write_bits / write_signed_bits raise exactly when the bit count is not in 1..64 or the value is outside the range of that width; when they raise, byte_array and bitposition are unchanged.", "quantifier": "all integers value and numbits, all writer states", "why_tests_cant": "The failing set is infinite on both sides and the 'no partial effect' claim ranges over every prior state.", "anchors": ["compiler/extensions/python/runtime/src/zserio/bitwriter.py: write_bits, write_signed_bits, write_bits_unchecked, write_signed_bits_unchecked"]}
{"id": "C06", "title": "Variable-length integer round trip", "statement": "For each of varint16/32/64/varint, varuint16/32/64/varuint and varsize, every value of the type written at any bit position is read back unchanged by the matching read method, consuming exactly the bits written.", "quantifier": "all nine types, all values in their range, all positions and all following data", "why_tests_cant": "Byte-count boundaries, the sign bit, the 8-bit final byte and the INT64_MIN special case combine over 2^64 values.", "anchors": ["compiler/extensions/python/runtime/src/zserio/bitwriter.py: write_varint16..write_varsize, _write_varnum", "compiler/extensions/python/runtime/src/zserio/bitreader.py: read_varint16..read_varsize"]}
{"id": "C07", "title": "Variable-length writers accept exactly the documented range", "statement": "write_varint16/.../write_varsize raise if and only if the value lies outside [*_MIN, *_MAX] published in zserio.limits, and a raising call leaves the writer unchanged.", "quantifier": "all integers, all nine types, all writer states", "why_tests_cant": "The accepted set must match constants defined elsewhere for all integers; tests only probe the boundaries somebody thought of.", "anchors": ["compiler/extensions/python/runtime/src/zserio/limits.py", "compiler/extensions/python/runtime/src/zserio/bitsizeof.py: _bitsizeof_varnum, VAR*_MAX_VALUES", "compiler/extensions/python/runtime/src/zserio/bitwriter.py: write_var*"]}
{"id": "C08", "title": "bitsizeof_* predicts the written size exactly", "statement": "For every built-in variable-size type, the bitsizeof_* function returns exactly the number of bits the corresponding write_* method appends, and raises exactly when the writer raises.", "quantifier": "all values of varint*/varuint*/varsize/bytes/string/bit buffers", "why_tests_cant": "Offsets are computed from predicted sizes before anything is written; one wrong value anywhere corrupts the stream silently.", "anchors": ["compiler/extensions/python/runtime/src/zserio/bitsizeof.py", "compiler/extensions/python/runtime/src/zserio/bitwriter.py"]}
{"id": "C09", "title": "Variable-length encodings are minimal and canonical", "statement": "The number of bytes used is the least one whose capacity holds the magnitude of the value (except for the varint minimum INT64_MIN, which has its own one-byte code; so it never decreases as the magnitude grows), and two different values of the type never have the same encoding, nor is one encoding a prefix of another.", "quantifier": "all pairs of values of each variable-length type", "why_tests_cant": "Prefix-freeness and minimality relate every pair of values.", "anchors": ["compiler/extensions/python/runtime/src/zserio/bitsizeof.py: _bitsizeof_varnum", "compiler/extensions/python/runtime/src/zserio/bitwriter.py: _write_varnum"]}
{"id": "C10", "title": "Reader position always stays inside the stream", "statement": "Whatever methods are called on a BitStreamReader created with a non-negative bit size (the default is the whole buffer), with whatever arguments, whether they succeed or raise, 0 <= bitposition <= buffer_bitsize holds and the buffer and its size never change.", "quantifier": "all buffers (arbitrary, possibly corrupted bytes), all finite sequences of reader calls", "why_tests_cant": "Quantifies over arbitrary garbage input and arbitrary call histories.", "anchors": ["compiler/extensions/python/runtime/src/zserio/bitreader.py: BitStreamReader"]}
{"id": "C11", "title": "Fixed-size reads return the next bits or fail cleanly", "statement": "read_bits(n) (1<=n<=64) raises iff fewer than n bits remain, leaving the position unchanged; otherwise it returns the value of the next n bits and advances by n. read_signed_bits, read_bool and the float reads behave accordingly.", "quantifier": "all buffers, all positions, all n", "why_tests_cant": "Slice and shift arithmetic over every alignment and length.", "anchors": ["compiler/extensions/python/runtime/src/zserio/bitreader.py: read_bits, read_bits_unchecked, read_signed_bits, read_bool"]}
{"id": "C12", "title": "Bits outside the declared bit size never influence reading", "statement": "Two buffers which agree on their first `bitsize` bits give identical results (values, exceptions, positions) for every sequence of reader calls.", "quantifier": "all pairs of buffers agreeing on the prefix, all call sequences", "why_tests_cant": "A relational property over pairs of executions.", "anchors": ["compiler/extensions/python/runtime/src/zserio/bitreader.py", "compiler/extensions/python/runtime/src/zserio/bitbuffer.py"]}
{"id": "C13", "title": "Variable-length reads of arbitrary input stay in range", "statement": "On any input, read_varint*/read_varuint*/read_varsize either raises or returns a value inside the limits of the type, and consumes between one byte and the type's maximum number of bytes.", "quantifier": "all input bit streams and positions", "why_tests_cant": "Adversarial inputs are unbounded; size fields read this way drive allocations.", "anchors": ["compiler/extensions/python/runtime/src/zserio/bitreader.py: read_varint16..read_varsize", "compiler/extensions/python/runtime/src/zserio/limits.py"]}
{"id": "C14", "title": "bytes, string and bit buffer round trip at any alignment", "statement": "write_bytes/write_string/write_bitbuffer followed by the matching read returns an equal value whether or not the stream is byte aligned, consuming exactly the written bits, and both code paths (aligned copy, unaligned bit loop) produce the same bits.", "quantifier": "all byte sequences, all Unicode strings, all bit buffers, all bit positions", "why_tests_cant": "Two separate implementations selected by alignment must agree for every content and length.", "anchors": ["compiler/extensions/python/runtime/src/zserio/bitwriter.py: write_bytes, write_string, write_bitbuffer", "compiler/extensions/python/runtime/src/zserio/bitreader.py: read_bytes, read_string, read_bitbuffer"]}
{"id": "C15", "title": "Any sequence of writes is read back by the same sequence of reads", "statement": "If a sequence of typed write calls (including alignments) succeeds, a reader over the produced buffer performing the corresponding read calls in the same order returns the same values and ends exactly at the end of the stream.", "quantifier": "all finite sequences of typed values and alignments", "why_tests_cant": "Arbitrary interleavings of types at arbitrary offsets.", "anchors": ["compiler/extensions/python/runtime/src/zserio/bitwriter.py", "compiler/extensions/python/runtime/src/zserio/bitreader.py", "compiler/extensions/python/runtime/src/zserio/serialization.py"]}
{"id": "C16", "title": "alignto agrees between writer, reader and size computation", "statement": "For every alignment a >= 1 and position p, writer.alignto(a) appends the least number of zero bits making the position a multiple of a, reader.alignto(a) skips the same number or raises without moving if that is beyond the end, and bitposition.alignto(a, p) computes the same end position.", "quantifier": "all positive alignments and all positions", "why_tests_cant": "Three independent formulas must coincide for all pairs.", "anchors": ["compiler/extensions/python/runtime/src/zserio/bitposition.py: alignto", "compiler/extensions/python/runtime/src/zserio/bitwriter.py: alignto", "compiler/extensions/python/runtime/src/zserio/bitreader.py: alignto"]}
{"id": "C17", "title": "BitBuffer equality is equality of the used bits", "statement": "Two BitBuffers compare equal iff they have the same bit size and the same first bitsize bits; unused trailing bits and bytes are ignored. The relation is an equivalence.", "quantifier": "all pairs of bit buffers", "why_tests_cant": "Masking of the last byte and whole-byte comparison must be right for each of 8 remainders and all contents.", "anchors": ["compiler/extensions/python/runtime/src/zserio/bitbuffer.py: BitBuffer.__eq__, _masked_last_byte"]}
{"id": "C18", "title": "BitBuffer hash is consistent with equality", "statement": "Equal BitBuffers have the same hash value, which is always in [0, 2^32).", "quantifier": "all pairs of bit buffers", "why_tests_cant": "Relational over all pairs.", "anchors": ["compiler/extensions/python/runtime/src/zserio/bitbuffer.py: BitBuffer.__hash__", "compiler/extensions/python/runtime/src/zserio/hashcode.py"]}
{"id": "C19", "title": "Position helpers", "statement": "bits_to_bytes and bytes_to_bits are inverse on multiples of 8 and bits_to_bytes raises exactly on non-multiples; bitsize_to_bytesize is the least number of bytes holding the bits; alignto returns the least multiple not below the position.", "quantifier": "all non-negative positions and alignments", "why_tests_cant": "Universal arithmetic.", "anchors": ["compiler/extensions/python/runtime/src/zserio/bitposition.py"]}
{"id": "C20", "title": "numbits builtin", "statement": "numbits(n) for n >= 2 is the least k with 2^k >= n (enough bits for values 0..n-1 and no fewer), numbits(0)=0, numbits(1)=1; it is monotone.", "quantifier": "all naturals", "why_tests_cant": "Universal over unbounded integers.", "anchors": ["compiler/extensions/python/runtime/src/zserio/builtin.py: numbits"]}
{"id": "C21", "title": "Dynamic bit field bounds agree with the stream", "statement": "For every length in 1..64, bitfield_lowerbound/upperbound and signed_bitfield_* are exactly the smallest and largest values write_bits / write_signed_bits accept for that length; other lengths raise.", "quantifier": "all lengths and values", "why_tests_cant": "Agreement of two modules for all integers.", "anchors": ["compiler/extensions/python/runtime/src/zserio/bitfield.py", "compiler/extensions/python/runtime/src/zserio/bitwriter.py: write_bits, write_signed_bits"]}
{"id": "C22", "title": "Hash code functions stay in 32 bits", "statement": "Every calc_hashcode_* function maps a 32-bit seed and any value to a result in [0, 2^32); None hashes as 0, a boolean as 0 or 1, a 64-bit integer as the exclusive or of its halves, a float as the integer of its IEEE bits; hashing a sequence is the polynomial 37^n*seed + sum of 37^(n-1-i)*v_i modulo 2^32, so hashing a concatenation equals hashing the second part seeded with the hash of the first; single integer elements of 32 bits hash injectively for a fixed seed.", "quantifier": "all seeds, all integers, all sequences", "why_tests_cant": "Unbounded values and lengths, negative numbers included.", "anchors": ["compiler/extensions/python/runtime/src/zserio/hashcode.py"]}
{"id": "C23", "title": "float16 bit patterns survive a read/write cycle", "statement": "For every one of the 65536 half-precision patterns (zeros, subnormals, normals, infinities, NaNs), converting to a float and back yields the same pattern, and the float denotes the IEEE 754 binary16 value of the pattern.", "quantifier": "all 16-bit patterns", "why_tests_cant": "Sampling misses subnormal normalisation corner cases; the whole domain is covered by proof.", "anchors": ["compiler/extensions/python/runtime/src/zserio/float.py: uint16_to_float, float_to_uint16"]}
{"id": "C24", "title": "float16 encoding rounds to a nearest half-precision value", "statement": "For every single-precision value of magnitude up to the largest finite half-precision value, float_to_uint16 returns a half-precision value at minimal distance; larger values become infinity; NaN stays NaN.", "quantifier": "all 2^32 single-precision patterns", "why_tests_cant": "2^32 inputs with rounding carries; claims about optimality need comparison with all 2^16 outputs.", "anchors": ["compiler/extensions/python/runtime/src/zserio/float.py: float_to_uint16"]}
{"id": "C25", "title": "Array bitsizeof equals bits written", "statement": "For any array (any element traits, auto / fixed / implicit, with or without indexed offsets) Array.bitsizeof(position) is exactly the number of bits Array.write appends when the writer stands at that position.", "quantifier": "all arrays of all lengths, all positions, all element encoders whose own size prediction is exact", "why_tests_cant": "The constant-size shortcut, the position-dependent path and the offset path must agree with the loop for all lengths.", "anchors": ["compiler/extensions/python/runtime/src/zserio/array.py: Array.bitsizeof, Array.write"]}
{"id": "C26", "title": "Array offset initialisation agrees with writing", "statement": "Array.initialize_offsets(position) returns the position where writing ends and hands to the offset setter exactly the positions at which Array.write later checks them, so the checks succeed; an array whose recorded offset differs at any index makes write and read raise.", "quantifier": "all arrays with indexed offsets, all lengths and positions", "why_tests_cant": "Cross-method agreement over unbounded element lists.", "anchors": ["compiler/extensions/python/runtime/src/zserio/array.py: Array.initialize_offsets, Array.write, Array.read"]}
{"id": "C27", "title": "Array round trip", "statement": "Writing an array and reading it with the same configuration (auto length, explicit length, or implicit to the end of stream, with or without indexed offsets) yields the same list of elements and consumes exactly the written bits.", "quantifier": "all element lists, all positions, all trailing data (none for implicit)", "why_tests_cant": "Unbounded lengths and nested element encodings.", "anchors": ["compiler/extensions/python/runtime/src/zserio/array.py: Array.read, Array.write"]}
{"id": "C28", "title": "Packed (delta) integer array round trip", "statement": "For every integral element type and every list of values of that type, write_packed followed by read_packed returns the same list, whatever mixture of packing decisions the data causes.", "quantifier": "all lists over all integral traits", "why_tests_cant": "The packing decision depends on all elements; delta widths 0..63 and the fallback to unpacked must all invert.", "anchors": ["compiler/extensions/python/runtime/src/zserio/array.py: DeltaContext, PackedArrayTraits, Array.write_packed, Array.read_packed"]}
{"id": "C29", "title": "Packed size prediction is exact", "statement": "bitsizeof_packed and initialize_offsets_packed give exactly the size / end position produced by write_packed.", "quantifier": "all lists over all integral traits, all positions", "why_tests_cant": "Size and write paths keep separate mutable contexts that have to stay in step over the whole list.", "anchors": ["compiler/extensions/python/runtime/src/zserio/array.py: Array.bitsizeof_packed, initialize_offsets_packed, DeltaContext.bitsizeof, DeltaContext.write"]}
{"id": "C30", "title": "Packing never costs more than one bit", "statement": "The packed representation of a non-empty array of integers is at most one bit longer than the unpacked representation of the same array (and the delta form is chosen only when it is strictly shorter).", "quantifier": "all lists over all integral traits", "why_tests_cant": "An inequality over all lists.", "anchors": ["compiler/extensions/python/runtime/src/zserio/array.py: DeltaContext._finish_init, DeltaContext.init"]}
{"id": "C31", "title": "Packed reads stay within the element type", "statement": "Reading a packed array from arbitrary (possibly corrupted) data either raises or returns only values of the element type.", "quantifier": "all input bit streams", "why_tests_cant": "Adversarial input.", "anchors": ["compiler/extensions/python/runtime/src/zserio/array.py: DeltaContext.read"]}
{"id": "C32", "title": "Generated compounds: bitsizeof equals bits written", "statement": "For every schema built of structures, unions, choices, arrays, optional / aligned / offset fields and every object that can be written, obj.bitsizeof(p) equals the number of bits obj.write appends at position p.", "quantifier": "all schemas of the modelled language, all objects, all positions", "why_tests_cant": "Quantifies over schemas, i.e. over generated programs.", "anchors": ["compiler/extensions/python/freemarker/Structure.py.ftl", "compiler/extensions/python/freemarker/CompoundField.inc.ftl: compound_bitsizeof_field, compound_write_field", "compiler/extensions/python/freemarker/Union.py.ftl", "compiler/extensions/python/freemarker/Choice.py.ftl"]}
{"id": "C33", "title": "Generated compounds: serialize then deserialize gives what the format stores", "statement": "For every modelled schema and every object for which zserio.serialize succeeds, zserio.deserialize of the result (with the same parameters) succeeds and returns what the format stores of the serialized object (after offset initialisation): the object itself if its floating point values are representable, unused bits of bit buffers are zero, unused optional fields are None, absent extended fields have their default value, present extended fields are not empty, and elements of arrays were created with the arguments the schema gives; otherwise exactly these parts are replaced (unused fields by None, absent ones by the default, floating point values by the representable one), as long as the expressions of the schema do not depend on a replaced part. The same holds at any position in the middle of a stream.", "quantifier": "all schemas of the modelled language, all objects, all parameters", "why_tests_cant": "Quantifies over generated programs and all their inputs.", "anchors": ["compiler/extensions/python/freemarker/Structure.py.ftl: read, write", "compiler/extensions/python/freemarker/CompoundField.inc.ftl: compound_read_field, compound_write_field", "compiler/extensions/python/freemarker/Union.py.ftl", "compiler/extensions/python/freemarker/Choice.py.ftl", "compiler/extensions/python/runtime/src/zserio/serialization.py"]}
{"id": "C34", "title": "Offsets are right after serialize", "statement": "serialize initialises every offset field to the byte position where the referenced field really starts, so no offset check performed by write or by a later read can fail; initialize_offsets returns the end position of the following write.", "quantifier": "all modelled schemas with offset fields, all objects, all starting positions", "why_tests_cant": "Offsets depend on all preceding sizes.", "anchors": ["compiler/extensions/python/freemarker/CompoundField.inc.ftl: compound_initialize_offsets_field, compound_check_offset_field", "compiler/extensions/python/runtime/src/zserio/serialization.py: _serialize"]}
{"id": "C35", "title": "Unknown union tags and unmatched choices are rejected", "statement": "Reading a union whose tag is not one of the schema's fields raises; reading, writing, or sizing a union or choice with no selected branch raises and never returns a value.", "quantifier": "all tags, all inputs", "why_tests_cant": "All 2^31 tags and all inputs.", "anchors": ["compiler/extensions/python/freemarker/Union.py.ftl: union_if, union_no_match", "compiler/extensions/python/freemarker/Choice.py.ftl"]}
{"id": "C36", "title": "Extended fields are backward and forward compatible", "statement": "A structure extended with fields at its end still reads data written by the old schema, reporting the extended fields absent, and the old schema reads the common fields of data written by the new one; data read with extended fields absent is re-written identically.", "quantifier": "all structures, all objects, all numbers of extended fields", "why_tests_cant": "Relates two generated programs over all objects.", "anchors": ["compiler/extensions/python/freemarker/Structure.py.ftl: read (isExtended branch), is_*_present"]}
{"id": "C37", "title": "Generated equality and hash are consistent", "statement": "For generated structures, unions and choices, equal objects have equal hashes and the hash is in [0, 2^32).", "quantifier": "all modelled schemas, all pairs of objects", "why_tests_cant": "Relational over pairs and schemas.", "anchors": ["compiler/extensions/python/freemarker/Structure.py.ftl: __eq__, __hash__", "compiler/extensions/python/freemarker/CompoundField.inc.ftl: compound_compare_field, compound_hashcode_field", "compiler/extensions/python/freemarker/Union.py.ftl", "compiler/extensions/python/runtime/src/zserio/hashcode.py"]}
{"id": "C38", "title": "Bitmask operators are closed and behave like sets", "statement": "For a bitmask type of any width, from_value accepts exactly the values in bounds; |, &, ^ and ~ of valid bitmasks are valid bitmasks whose bits are the union, intersection, symmetric difference and complement; ~~x == x and equal bitmasks hash alike; every bitmask value round trips through the stream.", "quantifier": "all widths, all values", "why_tests_cant": "Universal over widths and values.", "anchors": ["compiler/extensions/python/freemarker/Bitmask.py.ftl"]}
{"id": "C39", "title": "Enumerations round trip and reject unknown values", "statement": "Every non-removed item written is read back as the same item; reading any value that is not an item raises; removed items are never written.", "quantifier": "all enumerations (lists of distinct name/value items), all stream contents", "why_tests_cant": "Quantifies over all enumerations.", "anchors": ["compiler/extensions/python/freemarker/Enumeration.py.ftl", "compiler/extensions/python/runtime/src/zserio/enum.py"]}
{"id": "C40", "title": "Walker visits every present value exactly once in order", "statement": "Walking an object reports a properly nested sequence of begin/end events in schema order which visits each present field (each array element in index order) exactly once and, for observers that never stop it and a filter that accepts everything, determines the object.", "quantifier": "all object trees", "why_tests_cant": "Unbounded depth and breadth.", "anchors": ["compiler/extensions/python/runtime/src/zserio/walker.py: Walker, DefaultWalkFilter"]}
{"id": "C41", "title": "Walk filters restrict what is visited exactly as documented", "statement": "With DepthWalkFilter(d) exactly the nodes at depth at most d are visited (the fields of the root object have depth 1, their children depth 2, ...); with ArrayLengthWalkFilter(n) exactly the first n elements of each array (and what is in them); AndWalkFilter visits exactly what each of its filters visits; RegexWalkFilter visits a simple value exactly if its path matches; events stay well nested and no node is visited without its parent under any filter.", "quantifier": "all object trees, all depths and lengths, all filter combinations", "why_tests_cant": "Filters carry mutable state that must be restored on every exit path.", "anchors": ["compiler/extensions/python/runtime/src/zserio/walker.py: DepthWalkFilter, ArrayLengthWalkFilter, AndWalkFilter, RegexWalkFilter"]}
{"id": "C42", "title": "Tree creator state machine", "statement": "ZserioTreeCreator accepts exactly the well-nested event sequences matching the schema; every other call raises without changing the tree under construction; feeding it the walker events of an object rebuilds an equal object.", "quantifier": "all call sequences, all object trees", "why_tests_cant": "All histories of calls.", "anchors": ["compiler/extensions/python/runtime/src/zserio/creator.py: ZserioTreeCreator"]}
{"id": "C43", "title": "JSON strings round trip", "statement": "For every Unicode string, the JSON decoder applied to the output of the JSON encoder returns the same string and consumes exactly the encoded text.", "quantifier": "all strings over all code points", "why_tests_cant": "Control characters, quotes, backslashes, and non-BMP characters in every combination.", "anchors": ["compiler/extensions/python/runtime/src/zserio/json.py: JsonEncoder.encode_string, JsonDecoder._decode_string"]}
{"id": "C44", "title": "JSON integers, booleans and null round trip", "statement": "For every integer, boolean or null the text written by JsonWriter is decoded to the same value and type.", "quantifier": "all integers", "why_tests_cant": "Unbounded integers.", "anchors": ["compiler/extensions/python/runtime/src/zserio/json.py: JsonEncoder, JsonDecoder._decode_number, JsonDecoder.decode_value"]}
{"id": "C45", "title": "JSON token stream does not depend on buffering", "statement": "The sequence of tokens produced by JsonTokenizer depends only on the text, not on how the text stream is split into chunks by read().", "quantifier": "all texts and all ways to split them into chunks", "why_tests_cant": "A token may straddle a chunk boundary anywhere.", "anchors": ["compiler/extensions/python/runtime/src/zserio/json.py: JsonTokenizer"]}
{"id": "C46", "title": "JSON output of the writer is accepted by the parser", "statement": "For every sequence of walker events produced from an object tree, JsonWriter emits a text which JsonParser accepts and which yields the same nested keys and values.", "quantifier": "all object trees", "why_tests_cant": "Comma / nesting bookkeeping over arbitrary trees.", "anchors": ["compiler/extensions/python/runtime/src/zserio/json.py: JsonWriter, JsonParser"]}
{"id": "C47", "title": "Stringified bitmasks and enums read back", "statement": "For every bitmask value the text JsonWriter emits for it is parsed by JsonReader to the same value; for every known enumeration item likewise.", "quantifier": "all bitmask definitions and all values; all enumerations and items", "why_tests_cant": "Overlapping flag definitions and unnamed bits in all combinations.", "anchors": ["compiler/extensions/python/runtime/src/zserio/json.py: JsonWriter._write_stringified_bitmask, JsonReader._CreatorAdapter._bitmask_from_string, _enum_from_string"]}
{"id": "C48", "title": "deserialize_from_bytes ignores padding", "statement": "deserialize_from_bytes(serialize_to_bytes(obj)) equals obj although up to seven padding bits follow the object (implicit arrays and extended fields excepted).", "quantifier": "all modelled schemas and objects", "why_tests_cant": "Depends on the residual bit count of every object.", "anchors": ["compiler/extensions/python/runtime/src/zserio/serialization.py: serialize_to_bytes, deserialize_from_bytes"]}
{"id": "C49", "title": "Corrupted input never yields a partially successful read past the end", "statement": "Deserializing arbitrary bytes with any modelled schema either returns an object, with the reader inside the stream, or raises; it always terminates.", "quantifier": "all byte strings, all modelled schemas", "why_tests_cant": "All inputs.", "anchors": ["compiler/extensions/python/freemarker/Structure.py.ftl: read", "compiler/extensions/python/runtime/src/zserio/bitreader.py", "compiler/extensions/python/runtime/src/zserio/array.py: Array.read"]}
{"id": "C50", "title": "Service data wrapper transports the object unchanged", "statement": "ObjectServiceData.byte_array is the serialization of the wrapped object and stays the same on repeated access; RawServiceData returns the bytes it was given.", "quantifier": "all objects, all access sequences", "why_tests_cant": "History property.", "anchors": ["compiler/extensions/python/runtime/src/zserio/service.py: ObjectServiceData, RawServiceData"]}
{"id": "C51", "title": "Equality of generated objects is an equivalence", "statement": "For generated structures, unions and choices, == is reflexive for objects without NaN, symmetric and transitive; objects of the form they are read back in are equal exactly when all their members are the same.", "quantifier": "all modelled schemas, all objects of a class", "why_tests_cant": "Relational over pairs and triples of objects of arbitrary schemas, including unused optional fields, absent extended fields and spare bits of bit buffers.", "anchors": ["compiler/extensions/python/freemarker/Structure.py.ftl: __eq__", "compiler/extensions/python/freemarker/CompoundField.inc.ftl: compound_compare_field", "compiler/extensions/python/freemarker/Union.py.ftl: __eq__", "compiler/extensions/python/freemarker/Choice.py.ftl: __eq__"]}
{"id": "C52", "title": "Objects survive the round trip through JSON", "statement": "For every object, from_json_string(type, to_json_string(obj), *parameters) returns an object with the same values everywhere, and an identical object if all its extended fields are present; for any indent, both enumeration formats, and however the stream returns the text.", "quantifier": "all modelled type infos, all objects whose values are values of their types (no NaN), all indents, all ways to chunk the text", "why_tests_cant": "Unbounded object trees, texts and chunk boundaries; involves walker, writer, tokenizer, parser, reader and tree creator together.", "anchors": ["compiler/extensions/python/runtime/src/zserio/debugstring.py: to_json_string, from_json_string, from_json_stream", "compiler/extensions/python/runtime/src/zserio/json.py: JsonWriter, JsonReader", "compiler/extensions/python/runtime/src/zserio/creator.py: ZserioTreeCreator"]}
{"id": "C53", "title": "A service call behaves like a call of the implementation", "statement": "Over a backend which transports the bytes unchanged, a method of the generated client returns what the service's implementation of the method with that name returns for an equal request and the same context, or raises what it raises; an unknown method name raises ServiceException and a request which cannot be read raises, without calling any implementation.", "quantifier": "all services with distinct method names, all implementations with any server state, all requests, responses and contexts", "why_tests_cant": "Ranges over user implementations, service definitions and objects.", "anchors": ["compiler/extensions/python/freemarker/Service.py.ftl: call_method, Client", "compiler/extensions/python/runtime/src/zserio/service.py: ServiceInterface, ServiceClientInterface"]}
{"id": "C54", "title": "A published message reaches the subscriber unchanged", "statement": "Publishing a message hands the backend the topic and bytes such that a subscriber's callback, called by the backend with these bytes, receives an equal message; a message which cannot be written is not published and data which cannot be read are not passed to the callback.", "quantifier": "all messages, backends, callbacks and topics", "why_tests_cant": "Ranges over backends, callbacks and objects.", "anchors": ["compiler/extensions/python/freemarker/Pubsub.py.ftl: publish_, subscribe_, _on_raw_", "compiler/extensions/python/runtime/src/zserio/pubsub.py: PubsubInterface"]}
{"id": "C55", "title": "The JSON parser accepts exactly JSON texts and reports exactly the document it read", "statement": "If parsing a text (in any chunks) succeeds, the text starts, after blanks, with a JSON document - objects with string keys and a colon, arrays, strings, numbers and literals, comma-separated, properly nested - and the observer was told exactly the elements, keys and values of that document in order; for a text given in one chunk, parsing says it is finished if and only if the text is blank or is one document surrounded by blanks.", "quantifier": "every text and its division into chunks, every observer and its state", "why_tests_cant": "there are unboundedly many texts, nearly all malformed; that none of them is accepted with wrong events is a statement about all of them", "anchors": ["compiler/extensions/python/runtime/src/zserio/json.py JsonParser", "compiler/extensions/python/runtime/src/zserio/json.py JsonTokenizer", "compiler/extensions/python/runtime/src/zserio/json.py JsonDecoder"]}
{"id": "C56", "title": "Which texts are strings, integers, floats and literals for the JSON parser", "statement": "A text is accepted as a string exactly if it is a quoted sequence of unescaped characters, the seven one-letter escapes and \\u escapes with four hexadecimal digits, and the value is the sequence of the characters denoted; it is accepted as an integer exactly if it is an optional minus followed by decimal digits, with their value; as a float exactly if it has the shape of a float and float() accepts it; and the only other values are null, true, false, NaN, Infinity and -Infinity.", "quantifier": "every text and every value", "why_tests_cant": "an equivalence between a decoder and a grammar over all texts", "anchors": ["compiler/extensions/python/runtime/src/zserio/json.py JsonDecoder"]}
{"id": "C57", "title": "What is read from JSON has the types of the schema", "statement": "If from_json_string(type, text, *arguments) returns an object - whatever the text - then the text begins with a JSON object, and the returned object is an object of that type with these arguments whose fields and array elements, at any depth, are None or have exactly the types of the schema: items of the right enumeration, bitmasks within their bounds, a union's choice tag belonging to its value. (The order of the members matters: with another order a parameterized field may be created with other parameters.)", "quantifier": "every text and its division into chunks, every schema, type and arguments", "why_tests_cant": "malformed or adversarial texts are unbounded in number; one wrongly typed object breaks everything which uses it later", "anchors": ["compiler/extensions/python/runtime/src/zserio/json.py JsonReader", "compiler/extensions/python/runtime/src/zserio/creator.py ZserioTreeCreator", "compiler/extensions/python/runtime/src/zserio/debugstring.py from_json_string"]}
{"id": "C58", "title": "from_json returns exactly the object a JSON document stands for", "statement": "For every text of a JSON object, however blanks are put and however the stream delivers it, zserio.from_json_string(Type, text, *arguments) returns an object exactly if the document stands for one of this type, and returns this object: the members are taken one after the other, a member must name a field, its value is converted (names of enumeration items and bitmask values are resolved) and must have the type of the field, nested objects are created with the type arguments of the object read so far, bit buffers and byte arrays come from their 'buffer' and 'bitSize' members, and the last one of several members with the same key counts. Everything else raises an exception. For any text at all an object is returned only if the text begins with a JSON object which stands for it.", "quantifier": "all type information, all arguments, all JSON documents (any nesting, order and repetition of members), all layouts of their texts, all ways to cut the text into chunks", "why_tests_cant": "Documents are unboundedly nested and members come in any order; the reader is a state machine driven by parser events (key stack, value adapters, creator stacks), and tests follow only a few of its paths.", "anchors": ["compiler/extensions/python/runtime/src/zserio/json.py: JsonReader", "compiler/extensions/python/runtime/src/zserio/creator.py: ZserioTreeCreator", "compiler/extensions/python/runtime/src/zserio/debugstring.py: from_json_stream, from_json_string"]}
{"id": "C59", "title": "create_table and delete_table create and remove exactly the table of the schema", "statement": "If the table does not exist yet, create_table() of a generated SQL table (and create_ordinary_rowid_table()) creates it in the database it belongs to (the attached one if a name is given): empty, with exactly the declared columns of the sql_table type in their order (and those a virtual module adds). No other table in any file changes. If it exists, an exception is raised and nothing changes. delete_table() removes the table and nothing else.", "quantifier": "all table types (ordinary, virtual, with or without constraints and WITHOUT ROWID), all table and database names, all states of the connection", "why_tests_cant": "The statement is assembled as text from any number of columns, constraints and names; tests execute it for a few schemas.", "anchors": ["compiler/extensions/python/freemarker/SqlTable.py.ftl: create_table, create_ordinary_rowid_table, delete_table, _get_table_name_in_query", "compiler/extensions/python/src/zserio/extension/python/SqlTableEmitterTemplateData.java"]}
{"id": "C60", "title": "rows written to an SQL table are read back with equal values", "statement": "After write(rows) has returned, read() returns, in some order, the rows it would have returned before and the rows written: the same integers, texts, bytes, enumeration items, bitmasks, None and (for blobs with their parameters from earlier columns or from the parameter provider) equal objects. With a condition it returns exactly those of these rows whose stored values satisfy it. Rows whose values fit can be written if they respect the constraints. No other table changes, and existing rows stay.", "quantifier": "all table types, all numbers of rows, all values of all columns, all previous contents of the tables, all conditions", "why_tests_cant": "Rows, values and histories are unbounded, and every column kind converts its values in its own way.", "anchors": ["compiler/extensions/python/freemarker/SqlTable.py.ftl: write, read, _write_row, _read_row, IParameterProvider"]}
{"id": "C61", "title": "the choice of columns selects exactly the named columns", "statement": "write(rows, columns) sets exactly the named columns and leaves the others NULL; read(columns) returns the values of exactly the named columns (None for the others, or left out for tables which need no conversion of rows). The order and repetition of the names does not matter. An unknown name raises an exception and nothing happens. (Violated for tables with a single column, where every prefix of its name is accepted.)", "quantifier": "all table types, all lists of column names, all rows", "why_tests_cant": "There are exponentially many choices of columns in any order; tests try a few.", "anchors": ["compiler/extensions/python/freemarker/SqlTable.py.ftl: read, write, update, COLUMN_NAMES, _get_columns_in_query"]}
{"id": "C62", "title": "update changes exactly the named columns of exactly the matching rows", "statement": "update(row, condition, columns) replaces the values of the named columns in the rows for which the condition holds by those of the row; all other rows, the other columns of the matching rows and all other tables stay as they are.", "quantifier": "all table types, all contents, all conditions, all choices of columns, all new values", "why_tests_cant": "It must hold for every content of the table and every condition.", "anchors": ["compiler/extensions/python/freemarker/SqlTable.py.ftl: update, _write_row"]}
{"id": "C63", "title": "write is atomic with respect to crashes and respects an enclosing transaction", "statement": "If no transaction is open, a crash at any moment of write() leaves the files either as before the call or, after its last step, with all rows; if it raises, the files stay as before. Within a transaction of the user no method of a table commits anything. (The transaction write() has begun stays open when it raises, so everything written later is lost when the connection is closed.)", "quantifier": "all crash points, all sequences of calls of table methods, all rows including ones which cannot be written", "why_tests_cant": "Crash points and call sequences are unbounded; tests do not interrupt a call between two statements.", "anchors": ["compiler/extensions/python/freemarker/SqlTable.py.ftl: write"]}
{"id": "C64", "title": "every table of a database lives in the file the relocation map says", "statement": "from_file(filename, relocation map) succeeds for every map of table names to file names; each table object of the database then refers to the file of the map, or to the file of the database if it is not in the map; each file of the map is attached once, however many tables are relocated to it; nothing is changed in any file. Everything done with a table object afterwards is done in its file. (Violated for a table which is not relocated and does not exist in the database file: the table of the same name in an attached file is used, even by delete_table.)", "quantifier": "all database types, all relocation maps, all file contents", "why_tests_cant": "Relocation maps and the contents of all files involved range over unbounded sets; name resolution in SQL depends on the contents of every attached file.", "anchors": ["compiler/extensions/python/freemarker/SqlDatabase.py.ftl: from_file, _init_tables, _attach_database, __init__", "compiler/extensions/python/freemarker/SqlTable.py.ftl: _get_table_name_in_query"]}
{"id": "C65", "title": "create_schema and delete_schema create and remove all tables of a database atomically", "statement": "create_schema(black list) creates all tables of the database, each in its file, empty and with its columns, WITHOUT ROWID exactly for the types which say so and are not on the black list, and nothing else; delete_schema() removes all of them and nothing else; one after the other leaves all files as they were. Outside of a transaction both are atomic: a crash at any moment, or an exception, leaves the files as before the call. Within a transaction of the user they commit nothing.", "quantifier": "all database types with any number of tables, all black lists, all contents, all crash points", "why_tests_cant": "It must hold for any number of tables and for a crash or failure between any two statements.", "anchors": ["compiler/extensions/python/freemarker/SqlDatabase.py.ftl: create_schema, delete_schema"]}
{"id": "C66", "title": "close releases the connection exactly if the database owns it", "statement": "close() of a database opened with from_file closes the connection in any case, also when detaching fails; the files contain what was committed. Outside of a transaction it raises nothing. close() of a database constructed from a connection does not touch the connection. After close() the object's methods raise and do nothing. (from_file itself leaks the connection it has opened when a file cannot be attached.)", "quantifier": "all databases, all relocation maps, all states of the connection", "why_tests_cant": "It must hold in every state, including those where detaching fails.", "anchors": ["compiler/extensions/python/freemarker/SqlDatabase.py.ftl: close, _detach_databases, from_file"]}
{"id": "C67", "title": "generated expressions have the value of the schema expressions", "statement": "For every expression of a schema (array lengths, conditions, constraints, offsets, function results, parameters, constants), the Python text which the compiler generates for it is a valid Python expression with only one parse, and when it is evaluated its value is the one which the language guide gives to the schema expression: the precedence and associativity of operators are those of the schema language, literals of all notations have their values, valueof, lengthof, numbits, isset, @index and the operators on integers, booleans, strings, enumerations and bitmasks mean the same, and the value has the type the compiler computes.", "quantifier": "all well-typed expressions of any depth, all values of the symbols they refer to", "why_tests_cant": "Expressions nest without bound; precedence and chaining bugs appear only for particular combinations of operators.", "anchors": ["compiler/core/src/zserio/extension/common/ExpressionFormatter.java: append, emitBinaryExpression, emitUnaryExpression, emitTernaryExpression", "compiler/extensions/python/src/zserio/extension/python/PythonExpressionFormattingPolicy.java", "compiler/extensions/python/runtime/src/zserio/builtin.py: isset, numbits, lengthof_string", "doc/ZserioLanguageOverview.md: Expressions"]}
{"id": "C68", "title": "members of a generated class reach what they are named after", "statement": "For every structure, choice or union whose names the compiler accepts for Python, the generated module can be imported, and in the class each parameter, field and function is reached under its own name in snake case, the indicators and the resetter of optional fields and the indicator of extended fields under theirs, no method of the generated API (read, write, bitsizeof, type_info, ...) is replaced by a member of the schema, no attribute which holds the value of a field hides a method, and the arguments of the constructor are different valid Python names.", "quantifier": "all compound types, all names of their parameters, fields and functions which pass the checks, all combinations of generator options", "why_tests_cant": "The names are chosen by the user; a clash appears only for particular combinations of names after their conversion.", "anchors": ["compiler/extensions/python/src/zserio/extension/python/PythonGeneratedSymbolsClashChecker.java", "compiler/extensions/python/src/zserio/extension/python/PythonScopeSymbolClashChecker.java", "compiler/core/src/zserio/extension/common/ReservedKeywordsClashChecker.java", "compiler/extensions/python/src/zserio/extension/python/AccessorNameFormatter.java", "compiler/extensions/python/freemarker/Structure.py.ftl", "compiler/extensions/python/freemarker/Choice.py.ftl", "compiler/extensions/python/freemarker/Union.py.ftl", "compiler/extensions/python/freemarker/CompoundField.inc.ftl"]}
{"id": "C70", "title": "conversion of names to snake case", "statement": "The compiler converts a schema name to snake case by putting an underscore in front of each letter at which a word of the camel case name begins and changing the case of the letters, and nothing else: the result of an identifier is an identifier, converting again changes nothing, and two names become the same Python name in lower case exactly if they become the same in upper case.", "quantifier": "all identifiers", "why_tests_cant": "The conversion is done by two regular expression replacements one after the other whose matches may not overlap; names are unbounded.", "anchors": ["compiler/extensions/python/src/zserio/extension/python/PythonSymbolConverter.java: toLowerSnakeCase, toUpperSnakeCase, insertUnderscoresToCamelCase"]}
{"id": "C69", "title": "every schema symbol is importable from its own module and from the api module", "statement": "For every schema the compiler accepts for Python, the generated files have different paths and no file hides another one: importing package.module for a type or constant finds the module generated for exactly this symbol, importing the api module of a package gives every symbol of the package under its own name and every subpackage under its own name, no two of these names are the same, every directory on the way is a package, and a generated top level package does not hide a module which the generated code imports.", "quantifier": "all sets of packages and all names of their symbols which pass the checks", "why_tests_cant": "Clashes depend on combinations of user chosen names of symbols, packages and subpackages after conversion to snake case.", "anchors": ["compiler/extensions/python/src/zserio/extension/python/PythonModuleClashChecker.java", "compiler/extensions/python/src/zserio/extension/python/PythonPackageWithModuleClashChecker.java", "compiler/extensions/python/src/zserio/extension/python/PythonApiClashChecker.java", "compiler/extensions/python/src/zserio/extension/python/PythonTopLevelPackageClashChecker.java", "compiler/extensions/python/src/zserio/extension/python/ApiEmitter.java", "compiler/extensions/python/src/zserio/extension/python/InitPyEmitter.java", "compiler/extensions/python/freemarker/api.py.ftl", "compiler/core/src/zserio/ast/Package.java"]}
{"id": "C72", "title": "generated modules can be imported in any order", "statement": "For every accepted schema, importing any of the generated modules and the api modules, in any order and starting with any of them, raises no exception although types may refer to each other in cycles; afterwards each module contains the type or constant it was generated for and each api module all symbols of its package.", "quantifier": "all accepted schemas, all reference graphs between their symbols, all sequences of imports, with and without type information code", "why_tests_cant": "Whether an import fails depends on the cycle through which it enters the graph of modules and on which expressions the modules evaluate while being imported; tests import in one order.", "anchors": ["compiler/extensions/python/src/zserio/extension/python/PythonTemplateData.java", "compiler/extensions/python/src/zserio/extension/python/CompoundTypeTemplateData.java", "compiler/extensions/python/src/zserio/extension/python/CompoundFieldTemplateData.java", "compiler/extensions/python/src/zserio/extension/python/SqlTableEmitterTemplateData.java", "compiler/extensions/python/freemarker/FileHeader.inc.ftl", "compiler/extensions/python/freemarker/Constant.py.ftl", "compiler/extensions/python/freemarker/Subtype.py.ftl", "compiler/extensions/python/freemarker/Structure.py.ftl", "compiler/extensions/python/freemarker/api.py.ftl"]}
{"id": "C73", "title": "Objects survive a stay in a file", "statement": "serialize_to_file(obj, name) raises exactly if serialize_to_bytes(obj) does, and then no file is created or changed. Otherwise the file afterwards contains exactly the bytes of serialize_to_bytes, whatever it contained before, and no other file is changed. If it is interrupted at any point, the file is as before or contains an initial part of the new bytes. deserialize_from_file reads what deserialize_from_bytes reads from the contents, so that an object of a type which tells where it ends is read back. from_json_file(type, name) returns the object given to to_json_file(obj, name) if its strings can be encoded, for both conventions for line ends and however the file is read in pieces.", "quantifier": "all types, all objects, all file names, all previous contents of the file system, all points of interruption, all indents, both line separators and all ways to read a file in pieces", "why_tests_cant": "A test writes a few objects into fresh files on one platform; it cannot be interrupted at every point and does not see the line ends of the other platform, which could be confused with characters of a string.", "anchors": ["compiler/extensions/python/runtime/src/zserio/serialization.py: serialize_to_file, deserialize_from_file", "compiler/extensions/python/runtime/src/zserio/bitwriter.py: BitStreamWriter.to_file", "compiler/extensions/python/runtime/src/zserio/bitreader.py: BitStreamReader.from_file", "compiler/extensions/python/runtime/src/zserio/debugstring.py: to_json_file, from_json_file"]}
{"id": "C74", "title": "What was read can be written again and reads the same", "statement": "Whatever bytes deserialize accepts, whether written by zserio or not, the object it returns can be serialized without being changed, and deserialize of the new bytes returns the same object; the same holds for deserialize_from_bytes and for objects read from and written to the middle of a stream. (Reading therefore normalises: writing what has been read gives bytes that stay the same under reading and writing.)", "quantifier": "all schemas, all types, all parameters, all bytes, all positions in a stream", "why_tests_cant": "Tests read bytes that the writer under test or a reference writer has produced. The claim is about all bytes that are accepted, among them variable-length numbers with needless bytes, unknown trailing data and values the writer would never produce.", "anchors": ["compiler/extensions/python/runtime/src/zserio/serialization.py: serialize, deserialize, serialize_to_bytes, deserialize_from_bytes", "compiler/extensions/python/freemarker/CompoundField.inc.ftl: compound_read_field, compound_write_field", "compiler/extensions/python/freemarker/Enumeration.py.ftl: from_reader, write", "compiler/extensions/python/runtime/src/zserio/array.py: Array.from_reader, Array.write"]}
{"id": "C75", "title": "An object can be written exactly if it satisfies its schema", "statement": "An object is valid if every used field holds a value of its type (integers in the range, existing and not removed enumeration items, encodable strings, ...), arrays have the length the schema says, constraints hold, nested objects have been created with the arguments the schema gives, the tag of a union names a field and the selector of a choice has a case. serialize succeeds for every valid object (whose offsets initialize_offsets can set), at every position of the stream, and for no object that is not valid: then an exception is raised. Together with C33: every valid canonical object survives serialize and deserialize.", "quantifier": "all schemas, all types, all objects, valid or not, all positions in a stream", "why_tests_cant": "The set of valid objects of a schema and the set of schemas are infinite; tests pick a few valid objects and, per check, one invalid value. That no check is missing, and none rejects too much, is a statement about all objects.", "anchors": ["compiler/extensions/python/runtime/src/zserio/serialization.py: serialize", "compiler/extensions/python/freemarker/CompoundField.inc.ftl: compound_write_field, compound_check_constraint_field, compound_field_parameters checks", "compiler/extensions/python/freemarker/Structure.py.ftl: write", "compiler/extensions/python/freemarker/Union.py.ftl: write", "compiler/extensions/python/freemarker/Choice.py.ftl: write", "compiler/extensions/python/freemarker/Enumeration.py.ftl: write", "compiler/extensions/python/runtime/src/zserio/bitwriter.py: BitStreamWriter", "compiler/extensions/python/runtime/src/zserio/array.py: Array.write, Array.write_packed"]}
{"id": "C76", "title": "Literals keep their value", "statement": "An integer literal (decimal, hexadecimal, octal, binary), a float literal or a string literal with escape sequences that is accepted in a schema (in constants, default values, constraints, SQL constraints, topics, ...) denotes in the generated Python code the value the language documentation gives it.", "quantifier": "all literals the lexer of the compiler accepts, of any length", "why_tests_cant": "The set of literals is infinite; the test schemas contain a few of them. The compiler copies string literals verbatim, so the claim is about two different grammars of escape sequences agreeing on all texts.", "anchors": ["compiler/core/antlr/ZserioLexer.g4: STRING_LITERAL, BINARY_LITERAL, OCTAL_LITERAL, HEXADECIMAL_LITERAL, DOUBLE_LITERAL, FLOAT_LITERAL, DECIMAL_LITERAL", "compiler/core/src/zserio/ast/Expression.java: stripExpressionText, stripBinaryLiteral, stripOctalLiteral, stripHexadecimalLiteral, stripFloatLiteral", "compiler/extensions/python/src/zserio/extension/python/PythonExpressionFormattingPolicy.java: getDecimalLiteral, getBinaryLiteral, getHexadecimalLiteral, getOctalLiteral, getDoubleLiteral, getStringLiteral", "doc/ZserioLanguageOverview.md: Literals"]}
{"id": "C77", "title": "Objects do not share state behind the user's back", "statement": "Objects of generated classes which a program creates independently of each other (by constructors or by reading) share no mutable state: whatever is done to one of them and to the lists, bytearrays and objects in it, nothing changes in the other.", "quantifier": "all schemas, all programs (sequences of constructor calls, reads, accesses to fields, changes of lists and bytearrays), all ways to divide the variables of a program into two groups which share no object", "why_tests_cant": "A test compares a few objects after a few operations. The claim is about all sequences of operations and all pairs of objects, also ones created long after; a shared object shows up only when the right one is changed in place.", "anchors": ["compiler/extensions/python/freemarker/Structure.py.ftl: field_default_value, __init__", "compiler/extensions/python/freemarker/Union.py.ftl: __init__", "compiler/extensions/python/freemarker/Choice.py.ftl: __init__", "compiler/extensions/python/freemarker/CompoundField.inc.ftl: compound_setter_field, compound_getter_field", "compiler/extensions/python/src/zserio/extension/python/PythonNativeMapper.java: bytesType", "compiler/extensions/python/runtime/src/zserio/array.py: Array.__init__"]}
{"id": "C78", "title": "Constructors, getters and setters agree", "statement": "After construction the getter of a field returns the argument given for it or its default value. After an assignment the getter returns the assigned value (a new empty list stands for None in an array which is not optional), all other getters return what they returned before and no other object changes; an absent extended field which is assigned becomes present, together with all extended fields. reset makes an optional field None and not set. The constructor of a union or choice takes one member and refuses two; choice_tag of a union names the member set last.", "quantifier": "all compound types, all objects in all states programs can reach, all arguments and values, all fields", "why_tests_cant": "The accessors are generated for every schema from templates with many cases (array, optional, extended, union); tests look at single fields of single schemas, not at all other fields and objects being left alone.", "anchors": ["compiler/extensions/python/freemarker/Structure.py.ftl: __init__, properties, is_present, is_set, reset", "compiler/extensions/python/freemarker/Union.py.ftl: __init__, properties, choice_tag", "compiler/extensions/python/freemarker/Choice.py.ftl: __init__, properties", "compiler/extensions/python/freemarker/CompoundField.inc.ftl: compound_setter_field, compound_getter_field", "compiler/extensions/python/runtime/src/zserio/array.py: raw_array"]}
{"id": "C79", "title": "A reference to a template resolves to the instantiation it asks for", "statement": "In a schema the compiler accepts, the class generated for a reference to a template is made from that template with the arguments which are written, subtypes standing for what they are declared as. References to the same template with the same arguments, from places which see the same declarations, get the same class.", "quantifier": "all schemas, templates, nested arguments, orders and numbers of references, references within templates", "why_tests_cant": "Instantiations are looked up by names made from names of packages and types, cut off at 64 characters and told apart by a 32-bit hash; which names meet depends on the whole schema.", "anchors": ["compiler/core/src/zserio/ast/ZserioAstTemplator.java:instantiate", "compiler/core/src/zserio/ast/ZserioAstTemplator.java:generateInstantiationName", "compiler/core/src/zserio/ast/ZserioAstTemplator.java:appendTemplateArgument", "compiler/core/src/zserio/ast/TemplateArgument.java:equals", "compiler/core/src/zserio/ast/Package.java:getVisibleInstantiateType", "compiler/core/src/zserio/ast/TypeReference.java:instantiate"]}
{"id": "C80", "title": "Names of classes generated for templates", "statement": "A class generated for a template has the name of the visible declaration instantiate, in its package. Otherwise its name has at most 64 characters, is not the name of a symbol declared in the package of the template, and depends only on which instantiations the schema asks for, not on the order of references. Two instantiations in a package of an accepted schema never have the same name or module.", "quantifier": "all schemas, orders and numbers of references to templates", "why_tests_cant": "Clashes between generated names depend on all types and packages of a schema.", "anchors": ["compiler/core/src/zserio/ast/ZserioAstTemplator.java:resolveInstantiationNames", "compiler/core/src/zserio/ast/ZserioAstTemplator.java:checkInstantiationName", "compiler/core/src/zserio/ast/ZserioAstTemplator.java:generateShortInstantiationName", "compiler/core/src/zserio/ast/ZserioAstTemplator.java:generateInstantiationHashCode", "compiler/extensions/python/src/zserio/extension/python/PythonModuleClashChecker.java"]}
{"id": "C81", "title": "Values of enumeration items, bitmask values and constants", "statement": "The generated enumerations and bitmasks contain the values the language guide prescribes: that of the initializer, otherwise zero or the successor of the previous value (enumerations), one or the first unused bit (bitmasks). The values within a type differ and belong to its underlying type. The order of declarations and packages does not matter, circular definitions are refused, and evaluation always ends.", "quantifier": "all schemas with constants, enumerations and bitmasks, initializers with all operators which refer to each other in any way, all orders of declarations", "why_tests_cant": "Declarations are evaluated on demand while others are in evaluation; that the result is independent of the order, and that recursion ends exactly when there is no cycle, is a statement about all reference graphs and expressions.", "anchors": ["compiler/core/src/zserio/ast/ZserioAstEvaluator.java:visitExpression", "compiler/core/src/zserio/ast/Expression.java:evaluate", "compiler/core/src/zserio/ast/ExpressionIntegerValue.java", "compiler/core/src/zserio/ast/EnumType.java:evaluate", "compiler/core/src/zserio/ast/BitmaskType.java:evaluate", "compiler/core/src/zserio/ast/BitmaskType.java:getNextValue", "compiler/core/src/zserio/ast/Constant.java:check", "compiler/extensions/python/src/zserio/extension/python/EnumerationEmitterTemplateData.java"]}
{"id": "C82", "title": "Which schemas the compiler accepts: recursion and extended fields", "statement": "The compiler accepts exactly the schemas in which no two types contain each other, a type contains itself only in fields that can be left out, extended fields are the last ones of their structure and types with extended fields are not used inside of other types. Objects of every accepted type can be built, and the checks end.", "quantifier": "all schemas (any number of structures, unions and choices, any graph of uses, all orders of declarations), all stack sizes", "why_tests_cant": "The checks are recursive walks over the graph of types without a set of visited types; that they find every cycle and every nested extended field, and that they end, is a statement about all graphs.", "anchors": ["compiler/core/src/zserio/ast/CompoundType.java:checkDirectRecursion", "compiler/core/src/zserio/ast/CompoundType.java:checkIndirectRecursion", "compiler/core/src/zserio/ast/CompoundType.java:containsExtendedField", "compiler/core/src/zserio/ast/StructureType.java:checkExtendedFields", "compiler/core/src/zserio/ast/ZserioAstChecker.java", "compiler/core/src/zserio/ast/ZserioParseTreeChecker.java:visitFieldTypeId"]}
{"id": "C83", "title": "Data of accepted schemas can be read back", "statement": "Whatever schema the compiler accepts, the objects that generated code has written are read back: the position of each field follows from the bits before it.", "quantifier": "all schemas the compiler accepts, all objects, all parameters", "why_tests_cant": "The compiler decides with a static analysis of branches which fields may follow an implicit array; that the analysis is sufficient has to hold for all schemas and for all values that select the branches.", "anchors": ["compiler/core/src/zserio/ast/StructureType.java:checkImplicitArrays", "compiler/core/src/zserio/ast/CompoundType.java:hasFieldBranchWithoutImplicitArray", "compiler/core/src/zserio/ast/CompoundType.java:hasFieldEmptyBranch", "compiler/core/src/zserio/ast/ArrayInstantiation.java:checkImplicitArrayElementType", "compiler/extensions/python/runtime/src/zserio/serialization.py"]}
{"id": "C84", "title": "The branch of a choice", "statement": "The code generated for a choice the compiler accepts is valid Python and takes the case that lists the value of the selector, the default if there is none, and reports no match without a default. No value belongs to two cases, so the order of the cases does not matter.", "quantifier": "all choices (selectors of all types, any number of cases and values), all values of the selector, all permutations of the cases", "why_tests_cant": "It depends on the comparison of all pairs of case expressions and on the shape of the generated if statement for every number and kind of cases.", "anchors": ["compiler/core/src/zserio/ast/ChoiceType.java:checkUnreachableDefault", "compiler/core/src/zserio/ast/ChoiceType.java:checkDuplicatedCases", "compiler/core/src/zserio/ast/ExpressionComparator.java", "compiler/extensions/python/freemarker/Choice.py.ftl", "compiler/extensions/python/src/zserio/extension/python/ChoiceEmitterTemplateData.java"]}
{"id": "C85", "title": "What a successful write guarantees", "statement": "When write returns, every check of the generated code held for the whole object: in every used field of the object and of all objects nested in it (also in packed arrays) constraints hold, arrays with a length have this length, parameters are the arguments of the schema, enumeration items are not removed, and with the option -withRangeCheckCode every integer field (fixed, variable or of dynamic width) lies in the range of its type. If packed arrays hold only enumerations and objects with range-checked integer fields, a written object is valid, and serialize succeeds exactly for the valid objects.", "quantifier": "all schemas with packed and unpacked arrays, offsets and parameters, all objects nested to any depth, all writer positions", "why_tests_cant": "Differences in packed arrays bypass the range checks of the bit stream writer for some values and array lengths only; tests sample a few nested objects.", "anchors": ["compiler/extensions/python/freemarker/CompoundField.inc.ftl:compound_check_range_field", "compiler/extensions/python/freemarker/CompoundField.inc.ftl:compound_write_field_inner", "compiler/extensions/python/src/zserio/extension/python/CompoundFieldTemplateData.java", "compiler/extensions/python/runtime/src/zserio/array.py:DeltaContext", "compiler/extensions/python/runtime/src/zserio/bitfield.py"]}
{"id": "C86", "title": "What the compiler concludes about integer expressions", "statement": "The compiler computes for every integer expression either its value or bounds (used for the lengths of arrays, for recursion checks, for widths of bit fields and types of generated code). The value the expression has at run time is that value and lies within these bounds, whatever the fields and parameters in it hold. The bounds of bit fields with a dynamic width contain every number which such a field can hold.", "quantifier": "all expressions (any nesting of literals, fields, parameters, members, elements, function calls and operators), all values of the fields and parameters in them", "why_tests_cant": "Bounds must hold for every value of every operand (2^64 values per field) and for every composition of operators; tests try a few operands for each operator.", "anchors": ["compiler/core/src/zserio/ast/ExpressionIntegerValue.java", "compiler/core/src/zserio/ast/Expression.java: evaluate*", "compiler/core/src/zserio/ast/DynamicBitFieldInstantiation.java: evaluate"]}
{"id": "C87", "title": "Objects read from bytes have the type info of their class and survive conversion to JSON", "statement": "For every class generated from a schema, every object which deserialize or a bit stream reader returns, from whatever bytes, is described by the type info of the class: it has the parameters and fields which the type info lists, and every field, array element and nested object has a value of the type which the type info tells. Therefore to_json_string never fails for an object which was read, from_json_string of the text gives the same object again, and writing that object gives bytes which read as the same object.", "quantifier": "all schemas, all types and parameters, all bytes, all positions in a stream, all indents, all ways in which the stream delivers the text", "why_tests_cant": "The connection of two independently generated parts (the reading methods and the type info) must hold for every combination of field types, arrays, optional and extended fields, choices and unions at any nesting depth, and for every byte sequence which is accepted, not only for those from the writer.", "anchors": ["compiler/extensions/python/freemarker/TypeInfo.inc.ftl", "compiler/extensions/python/freemarker/Structure.py.ftl: type_info, __init__, read", "compiler/extensions/python/freemarker/Choice.py.ftl: type_info, choice_tag, read", "compiler/extensions/python/freemarker/Union.py.ftl: type_info, read", "compiler/extensions/python/runtime/src/zserio/json.py: JsonWriter, JsonReader", "compiler/extensions/python/runtime/src/zserio/serialization.py"]}
{"id": "C88", "title": "A name in a schema means one symbol, independently of the order of imports", "statement": "Which type or constant a name in a schema means is determined by the definitions of the package and by the set of its imports, not by their order or repetition. A name without a package means the symbol of the package itself, or else the one imported by name, or else the one from the packages imported as a whole; if that is not exactly one symbol, the schema is refused. What is found always exists in the package it is said to be in, and is defined there or imported. Every symbol which is defined or imported can be used by its fully qualified name, in types and in expressions, and nothing else can: imports are not passed on.", "quantifier": "all sets of packages, all lists of imports, all names with and without a package, all scopes of expressions", "why_tests_cant": "Imports interact with each other and with definitions through two lists which are changed import by import; which symbol is chosen must not depend on the order, for any number of packages and imports with any overlap of names.", "anchors": ["compiler/core/src/zserio/ast/Package.java: getVisibleSymbol, resolveImports, getAllVisibleSymbols", "compiler/core/src/zserio/ast/Import.java: resolveImport", "compiler/core/src/zserio/ast/TypeReference.java: resolve", "compiler/core/src/zserio/ast/Expression.java: evaluateIdentifier, evaluatePackageDotExpression", "doc/ZserioLanguageOverview.md: Packages and Imports"]}
{"id": "C89", "title": "Expressions of a compound type use only what has been read before", "statement": "In an accepted schema no expression of a structure, choice or union (array length, bit length, argument, alignment, offset, initial value, condition, constraint, selector, case) reads a field which comes after it, neither directly nor through the functions it calls; only a constraint can use its own field. Every name in an expression or function means the field of that name if the compound type has one which can be used there. Functions do not call themselves, directly or through others. Conversely, a compound type whose names differ and whose expressions and functions use only parameters, earlier fields, symbols of the package and functions without recursion is accepted.", "quantifier": "all structures, choices and unions with any number of parameters, fields, cases and functions, all expressions, all call graphs of functions", "why_tests_cant": "Functions are evaluated again for each call in the scope of the call, so what a name means depends on the whole call graph and on the order of all calls; tests cover a few shapes.", "anchors": ["compiler/core/src/zserio/ast/ZserioAstScopeSetter.java: visitField, visitChoiceType, visitUnionType, visitFunction, visitExpression", "compiler/core/src/zserio/ast/Scope.java: addSymbol, removeSymbol, findSymbol", "compiler/core/src/zserio/ast/Expression.java: evaluate, evaluateIdentifier, evaluateFunctionCallExpression", "compiler/core/src/zserio/ast/ZserioAstEvaluator.java", "doc/ZserioLanguageOverview.md: Functions"]}
{"id": "C90", "title": "Parameters of fields are what the schema says, and objects which were read can be written again", "statement": "When an object is written it is refused exactly if a field which is used holds an object one of whose parameters differs from what the argument in the schema gives: values of built-in types are compared by value, bitmasks, enumeration items and objects by identity. An object which was read passes this check, and reading changes no object which existed before.", "quantifier": "all structures with any fields, conditions and arguments (parameters, fields, members of members, elements of arrays, conditional expressions, functions, operators), all contents of the bit stream, all objects which exist before and after", "why_tests_cant": "identity of objects depends on how each argument is written in the schema; a test has one schema and compares a few objects", "anchors": ["compiler/extensions/python/freemarker/CompoundField.inc.ftl: compound_check_parameterized_field, compound_read_field, compound_field_constructor_parameters", "compiler/extensions/python/freemarker/Bitmask.py.ftl: __or__, __and__, __xor__, __invert__, Values", "compiler/extensions/python/freemarker/Structure.py.ftl: from_reader, read", "compiler/extensions/python/src/zserio/extension/python/NativeTypeInfoTemplateData.java: getIsBuiltin"]}
{"id": "C91", "title": "The depth of the stack decides only whether deeply nested objects can be handled, not what the result is", "statement": "Computing sizes, initialising offsets, writing, serialising, comparing and hashing an object which is nested less deep than the stack allows gives the same result, exception, object and bytes with every larger stack, even if the types of the schema are recursive. For any object and any input a larger stack changes nothing but RecursionError: bytes which are read to an object are never read to a different one.", "quantifier": "all schemas (also recursive ones), all objects of any depth, all inputs, all sizes of the stack", "why_tests_cant": "objects can be nested without bound and the size of the stack differs between installations; a test has one stack and a few objects", "anchors": ["compiler/extensions/python/freemarker/Structure.py.ftl: bitsizeof, initialize_offsets, read, write, __eq__, __hash__", "compiler/extensions/python/freemarker/Union.py.ftl", "compiler/extensions/python/freemarker/Choice.py.ftl", "compiler/extensions/python/runtime/src/zserio/array.py: Array", "compiler/extensions/python/runtime/src/zserio/serialization.py: serialize, deserialize"]}
{"id": "C92", "title": "Documentation comments become documentation and nothing else", "statement": "When code is generated with comments, the string literal in the generated module which holds the documentation comments of a class, constant, item, field, function or message ends exactly where the template ends it, whatever code follows, and its value contains every text of the comments unchanged.", "quantifier": "all comments: any number of paragraphs, lines, links, todo, parameter and deprecated tags with any texts, any indent, any code after them", "why_tests_cant": "comments are free text; a test has a few comments, and quotes and backslashes interact with what the template puts around them", "anchors": ["compiler/extensions/python/freemarker/DocComment.inc.ftl: doc_comments, doc_comments_inner, doc_comment, doc_multiline", "compiler/extensions/python/src/zserio/extension/python/DocCommentsTemplateData.java", "compiler/core/src/zserio/ast/DocCommentAstBuilder.java: visitDocText, visitSeeTag", "compiler/core/antlr/DocComment.g4"]}
{"id": "C93", "title": "Schemas which the compiler accepts never fail because of their offsets", "statement": "If the compiler accepts a schema, no length, argument, condition, constraint or function result depends on a field used as an offset, in whatever object the field is, and serializing an object whose offsets can be initialized never raises the exception for a wrong offset: the object which is written differs from the given one only in offsets.", "quantifier": "all schemas with any number of structures, unions and choices which contain each other, all expressions and functions calling each other, all offsets (single and arrays), all objects and all values of their offsets", "why_tests_cant": "an offset can be reached through any chain of fields, array elements and functions of other structures; a test tries a few refused and a few accepted schemas", "anchors": ["compiler/core/src/zserio/ast/ExpressionUtil.java: checkOffsetFields", "compiler/core/src/zserio/ast/Field.java: evaluate, check, checkOffsetExpression, isPackable", "compiler/core/src/zserio/ast/StructureType.java: checkDuplicatedOffsets", "compiler/core/src/zserio/ast/Function.java: check", "compiler/core/src/zserio/ast/Expression.java: getReferencedSymbolObjects", "compiler/core/src/zserio/ast/ZserioParseTreeChecker.java"]}
{"id": "C94", "title": "Offsets may be stored in any object", "statement": "An offset may be a field of another object: of a parameter, of a nested object, or of an element of an array. initialize_offsets changes nothing but the offsets which belong to the object, and after it writing the object at the same position does not raise the exception for a wrong offset and ends at the position initialize_offsets has returned. The code which sets an offset is an assignment to exactly the expression which is checked.", "quantifier": "all schemas of structures with parameters, arrays, optional fields, conditions and alignments, all offset expressions of any length, all graphs of objects which share and contain each other in any way, all values, all positions", "why_tests_cant": "which object an offset is stored in depends on the identity of objects passed as parameters along any path; a test builds a few trees in which each object occurs once", "anchors": ["compiler/extensions/python/freemarker/CompoundField.inc.ftl: compound_initialize_offsets_field, compound_write_field, compound_check_offset_field, define_offset_setter, define_offset_checker", "compiler/extensions/python/freemarker/Structure.py.ftl: initialize_offsets, write", "compiler/core/src/zserio/extension/common/ExpressionFormatter.java: formatSetter, formatGetter", "compiler/core/src/zserio/ast/Field.java: checkOffsetExpression", "compiler/core/src/zserio/ast/StructureType.java: checkDuplicatedOffsets"]}
{"id": "C95", "title": "Incremental code generation is as good as generation from scratch", "statement": "After a successful run of the compiler all generated files have the contents they would have in an empty output directory, although files which are newer than the schema are not written again; this holds after any history of edits, upgrades of the compiler, changed options, failed and killed runs. A run writes exactly the files which are not newer than all schema files and the compiler or which tell other versions or options; with -ignoreTimestamps it writes all. A refused schema changes no file. Every run of an accepted schema comes to its end.", "quantifier": "all histories of edits, removals, copies, upgrades, starts, stops at any point and steps of the compiler, all schemas with any number of files which import each other in any way, all compilers and options", "why_tests_cant": "tests compile a schema once into an empty directory; the property ranges over all histories and all points at which a run can be stopped or files can be changed", "anchors": ["compiler/core/src/zserio/tools/ZserioTool.java: process, parsePackage, parseImportedPackages", "compiler/core/src/zserio/tools/InputFileManager.java: registerFile", "compiler/core/src/zserio/tools/ZserioExtensionParameters.java", "compiler/core/src/zserio/extension/common/OutputFileManager.java: checkTimestamps, registerOutputFile", "compiler/extensions/python/src/zserio/extension/python/PythonDefaultEmitter.java: processTemplate, checkGeneratorDescription", "compiler/core/src/zserio/extension/common/FreeMarkerUtil.java: processTemplate", "compiler/extensions/python/src/zserio/extension/python/TemplateDataContext.java"]}
{"id": "C96", "title": "The compiler checks SQL tables and databases", "statement": "The compiler accepts exactly the SQL tables which have columns with names that differ not only in case, none of which is itself a table, whose explicit parameters of one name have one type, and which, unless they are virtual tables, have no virtual columns, name only their own columns in PRIMARY KEY(...) and UNIQUE(...) and have a primary key if they are WITHOUT ROWID. It is silent exactly if the one primary key consists of the first columns, which are NOT NULL. A database is accepted exactly if all its fields are tables with names that differ not only in case. Accepted tables are such that the generated statements are about existing, distinct columns.", "quantifier": "all declarations of tables and databases with any columns and any texts of constraints", "why_tests_cant": "the constraints are arbitrary texts searched with regular expressions, and columns and clauses can be of any number; tests try a few texts", "anchors": ["/repo/compiler/core/src/zserio/ast/SqlTableType.java: check, checkExplicitParameters, checkPrimaryKeyConstraint, checkUniqueConstraint", "/repo/compiler/core/src/zserio/ast/SqlConstraint.java: extractColumnsFromConstraint, isPrimaryKey, isNullAllowed", "/repo/compiler/core/src/zserio/ast/CompoundType.java: checkSqlSymbolNames, checkSqlTableFields", "/repo/compiler/core/src/zserio/ast/SqlDatabaseType.java: check"]}
{"id": "C97", "title": "Expressions accepted by the compiler are well-typed and can be evaluated", "statement": "An expression of a schema is accepted by the compiler exactly if it has a type by the rules of the language guide, with that type. The generated Python code can evaluate every accepted expression in every object in which all values are set: it raises no exception, except for faults which depend on the values (division by zero, negative shifts, indices out of range, numbits of a negative number, strings without an encoding), and the result has the type which the compiler computed.", "quantifier": "all expressions of any depth, all declarations of symbols and all objects", "why_tests_cant": "the rules are about combinations of operators, kinds of operands and declarations at any depth; tests try each operator with a few operands", "anchors": ["/repo/compiler/core/src/zserio/ast/Expression.java: evaluate, evaluateDotExpression, evaluateArithmeticExpression, evaluateBitExpression, evaluateRelationalExpression, evaluateConditionalExpression", "/repo/compiler/extensions/python/src/zserio/extension/python/PythonExpressionFormattingPolicy.java: getDot"]}
{"id": "C98", "title": "Without warnings about optional fields, absent fields are never asked for", "statement": "If the compiler prints no warning of the kind optional-field-reference for a field, a function or the selector of a choice, then the evaluation of its expressions (offset, arguments, condition, constraint, lengths, result, selector) never asks for an optional field which is not there, in any object in which fields with conditions are present exactly if their conditions are true. A warning is printed exactly for the fields which may be absent where they are referred to by name.", "quantifier": "all expressions, all declarations of optional fields and all objects", "why_tests_cant": "the warning is decided by the shape of two expressions of any depth, while its meaning is about all objects; tests look for the warnings of a few schemas", "anchors": ["/repo/compiler/core/src/zserio/ast/Expression.java: getReferencedOptionalFields, addReferencedOptionalField, addReferencedLeftAndExpr", "/repo/compiler/core/src/zserio/ast/Field.java: checkOptionalReferences", "/repo/compiler/core/src/zserio/ast/ExpressionComparator.java: equals", "/repo/compiler/core/src/zserio/ast/Function.java: checkOptionalReferencesInFunction", "/repo/compiler/core/src/zserio/ast/ChoiceType.java: checkOptionalReferencesInSelector", "/repo/doc/ZserioUserGuide.md: optional-field-reference"]}
{"id": "C99", "title": "Accepted fields: defaults can be stored, alignments aligned to, conditions decided", "statement": "In a field which the compiler accepts, the default value is one which the field can hold (an integer within the range of its type, a value of its enumeration or bitmask) and is the same for all objects; the alignment is a number to which positions can be aligned, with the writer, the reader and the size computation agreeing; conditions and constraints are true or false; lengths are integers and numbers of bits from 1 to 64; arguments are as many as the parameters and have their types. Conversely every field which keeps to these rules is accepted.", "quantifier": "all fields with arbitrary expressions, all declarations and all objects", "why_tests_cant": "the rules are about all expressions and the values they yield in all objects; tests look at a few schemas", "anchors": ["/repo/compiler/core/src/zserio/ast/Field.java: check", "/repo/compiler/core/src/zserio/ast/ExpressionUtil.java: checkExpressionType, checkIntegerExpressionRange, checkBooleanExpressionType", "/repo/compiler/core/src/zserio/ast/ArrayInstantiation.java: check", "/repo/compiler/core/src/zserio/ast/ParameterizedTypeInstantiation.java: check, resolve", "/repo/compiler/core/src/zserio/ast/DynamicBitFieldInstantiation.java: evaluate", "/repo/compiler/core/src/zserio/ast/ZserioParseTreeChecker.java: visitIndexExpression", "/repo/compiler/extensions/python/runtime/src/zserio/bitwriter.py: alignto", "/repo/compiler/extensions/python/runtime/src/zserio/bitreader.py: alignto"]}
{"id": "C100", "title": "Command line options do what the guide says", "statement": "A warning which the compiler finds is printed exactly if it is enabled: named in -withWarnings, or not named in -withoutWarnings and all is in -withWarnings, or neither it nor all is named and it is on by default; order and repetitions do not matter, and exactly the lists with unknown or conflicting names are refused. Each part of the generated code is switched as its pair of options says, or by default, what needs writer code is never generated without it, and exactly the contradictory command lines are refused. The top level package is split at its dots and is accepted exactly if its parts can be names of packages.", "quantifier": "all command lines (lists of options and of names of warnings, names of packages) and all lists of warnings", "why_tests_cant": "the options are lists of any length whose interaction depends on priorities; tests try a few combinations", "anchors": ["/repo/compiler/core/src/zserio/tools/WarningsConfig.java: validate, setWarnings, setAll, setWarning, isEnabled", "/repo/compiler/core/src/zserio/tools/CommandLineArguments.java: readOptions, validateOptions", "/repo/compiler/core/src/zserio/tools/ZserioToolPrinter.java: printWarning", "/repo/compiler/core/src/zserio/ast/IdentifierValidator.java: validateTopLevelPackageId", "/repo/doc/ZserioUserGuide.md: Zserio Warnings Subsystem"]}
{"id": "C101", "title": "Versions are compared, parsed and enforced as documented", "statement": "The texts major.minor.revision and major.minor.revision-preN, and no others, are versions; versions are ordered by their numbers from left to right with pre-releases before the release, and a printed version is read back as itself. A package can ask for compatibility exactly with the versions from 2.4.0 to that of the compiler. An extension is accepted exactly if its major and minor numbers are those of the compiler and it is not newer. If a package asks for compatibility with a version before 2.5.0, code for packed arrays, whose encoding has changed in 2.5.0, is not generated.", "quantifier": "all texts, all versions within the range of int, all schemas", "why_tests_cant": "the order must hold for all numbers (the code subtracts ints, which can overflow) and the parser reads any text; tests compare a few versions", "anchors": ["/repo/compiler/core/src/zserio/tools/ZserioVersion.java: compareTo, parseVersion, toString", "/repo/compiler/core/src/zserio/tools/ExtensionVersionMatcher.java: match", "/repo/compiler/core/src/zserio/ast/CompatibilityVersion.java", "/repo/compiler/core/src/zserio/extension/common/CompatibilityChecker.java: beginPackage, checkCompoundPackedArrays", "/repo/doc/ZserioLanguageOverview.md: Compatibility Check"]}
{"id": "C102", "title": "Packed arrays use packing exactly where it is possible, and find the methods they need", "statement": "A type can be packed exactly if it is an integer type, enumeration or bitmask, a union with fields, or a compound with a field (not used as an offset, no implicit array) whose type can be packed. The compiler decides this for all accepted schemas, also with recursive types. The warning that packed has no effect is printed exactly if the elements cannot be packed (and have fields), and then the encoding without packing is used. Every method for packed arrays which the generated code calls exists in the generated class it is called on.", "quantifier": "all accepted schemas (any number of types, any nesting, recursive types), all fields", "why_tests_cant": "which methods are generated depends on all uses of a type in the whole schema; tests have a few schemas", "anchors": ["/repo/compiler/core/src/zserio/ast/ArrayInstantiation.java: isPackable, isTypePackable, checkPackedArrayElementType", "/repo/compiler/core/src/zserio/ast/CompoundType.java: isPackable, hasPackableField", "/repo/compiler/core/src/zserio/ast/UnionType.java: isPackable", "/repo/compiler/core/src/zserio/ast/Field.java: isPackable", "/repo/compiler/core/src/zserio/extension/common/PackedTypesCollector.java: visitCompound", "/repo/compiler/extensions/python/freemarker/CompoundField.inc.ftl: uses_field_packing_context, array_field_packed_suffix, define_element_factory", "/repo/doc/ZserioLanguageOverview.md: Packed Arrays"]}
{"id": "C103", "title": "Names of types are resolved to what they stand for, and cycles are reported", "statement": "The compiler resolves the references to types of every schema: without cycles of subtypes and template instantiations it terminates, accepts the schema if all references are right (to types, templates with arguments, template parameters only in their template) and prints a message otherwise; every subtype gets the type at the end of the chain of definitions as base type. A cycle is reported by a message. The time is not exponential in the size of the schema.", "quantifier": "all schemas (any number of symbols, any order, any nesting of template arguments)", "why_tests_cant": "termination and the report of cycles depend on the shape of the whole graph of definitions and on their order", "anchors": ["/repo/compiler/core/src/zserio/ast/ZserioAstTypeResolver.java: visitSubtype, visitTypeReference, visitInstantiateType, checkCycle", "/repo/compiler/core/src/zserio/ast/TypeReference.java: resolve, getBaseTypeReference", "/repo/compiler/core/src/zserio/ast/Subtype.java: resolve", "/repo/compiler/core/src/zserio/ast/InstantiateType.java: resolve"]}
{"id": "C104", "title": "Identifiers of rules are unique", "statement": "A schema is accepted exactly if the identifiers of all rules are constant strings which are a letter followed by letters, digits, underscores, hyphens, colons and dots, and no two rules have identifiers which differ at most in capital letters: within a package, and with -withGlobalRuleIdCheck (in the language guide always) within all packages. The order of rules, groups and packages does not matter.", "quantifier": "all schemas (any number of packages, groups and rules, any texts)", "why_tests_cant": "all pairs of rules of all packages are compared, for every text", "anchors": ["/repo/compiler/core/src/zserio/ast/RuleIdValidator.java: validate", "/repo/compiler/core/src/zserio/ast/RuleIdUniqueChecker.java: visitRule", "/repo/compiler/core/src/zserio/ast/Rule.java: evaluate", "/repo/compiler/core/src/zserio/ast/Package.java: check", "/repo/compiler/core/src/zserio/ast/Root.java: check", "/repo/doc/ZserioLanguageOverview.md: Rules"]}
{"id": "C105", "title": "Warnings about unhandled items and unused types", "statement": "For a choice on an enumeration without a default there is a warning for exactly those items which no case lists, so without a warning no item leads to the exception that no case matches. There is a warning for exactly those types which no other definition uses, and such types can be removed.", "quantifier": "all choices on enumerations (any items and cases) and all schemas (any definitions and references)", "why_tests_cant": "every item is compared with every case and every type with every reference; the absence of a warning must guarantee something for all values", "anchors": ["/repo/compiler/core/src/zserio/ast/ChoiceType.java: checkEnumerationCases", "/repo/compiler/core/src/zserio/ast/ZserioAstChecker.java: visitRoot, visitTypeReference, visitSubtype, addUsedType", "/repo/compiler/core/src/zserio/ast/Expression.java: getReferencedSymbolObjects", "/repo/compiler/extensions/python/freemarker/Choice.py.ftl"]}
{"id": "C106", "title": "Expressions are grouped by the precedences of the language guide", "statement": "A text is accepted as an expression exactly if its operators can be grouped as the table of precedences in the language guide says (higher lines bind tighter; from left to right on the same line; the ternary operator from right to left), and the expression then has this, unique, grouping; every grouping can be written with parentheses. The operator >> contains no spaces.", "quantifier": "all sequences of tokens (any length, any nesting)", "why_tests_cant": "any number of operators can be combined; only an induction shows that no combination is grouped differently or refused", "anchors": ["/repo/compiler/core/antlr/ZserioParser.g4: expression", "/repo/compiler/core/src/zserio/ast/ZserioAstBuilder.java: visitShiftExpression", "/repo/doc/ZserioLanguageOverview.md: Operator Precedence"]}
{"id": "C108", "title": "The layout of a schema does not change its meaning", "statement": "A schema is divided into tokens without losing a character; each token is the longest possible one. A word is a keyword only as a whole and is never divided. However the tokens are laid out, with any white space and any comments between them (and nothing between words and punctuation), the parser gets the same tokens; a comment ends at its first */.", "quantifier": "all texts (any length), all sequences of tokens and all their layouts", "why_tests_cant": "tokens, comments and white space can be combined in infinitely many ways, and a comment can swallow text far behind it", "anchors": ["/repo/compiler/core/antlr/ZserioLexer.g4"]}
{"id": "C107", "title": "Services and Pub/Sub types are accepted and connected as declared", "statement": "A service is accepted exactly if its requests and responses are bytes or compound types without parameters and its methods have distinct names; a Pub/Sub type likewise, and the topic of each message is a constant string. The generated Pub/Sub class has a publish method exactly for the published messages and a subscribe method exactly for the subscribed ones; each uses the topic and the type of its message, and everything it calls exists. The generated service calls for each name the implementation of that method with its own request and response.", "quantifier": "all services and Pub/Sub types with any number of methods and messages, all names, types and topics, all backends and callbacks", "why_tests_cant": "methods are connected by names computed from the schema; a clash or a missing helper needs a particular combination of declarations", "anchors": ["/repo/compiler/core/src/zserio/ast/ServiceMethod.java checkUsedType", "/repo/compiler/core/src/zserio/ast/PubsubMessage.java check", "/repo/compiler/extensions/python/freemarker/Pubsub.py.ftl", "/repo/compiler/extensions/python/freemarker/Service.py.ftl", "/repo/compiler/extensions/python/src/zserio/extension/python/PubsubEmitterTemplateData.java"]}
{"id": "C109", "title": "Documentation comments belong to the declaration which they precede", "statement": "A documentation comment is associated with the declaration behind it if only white space and comments are between them, and with no other; the comments of a declaration keep their order. The compiler warns about a documentation comment exactly if it belongs to no declaration. Comments which are not separated by an empty line from what follows are written to generated code. A Markdown comment which is indented as a whole is shown without its indentation.", "quantifier": "all schemas (any number and layout of tokens and comments), all sets of declarations, all texts of comments and indentations", "why_tests_cant": "comments, white space and declarations can be combined in infinitely many ways, and the association depends on the tokens around a comment", "anchors": ["/repo/compiler/core/src/zserio/ast/DocCommentManager.java", "/repo/compiler/extensions/python/src/zserio/extension/python/DocCommentsDataCreator.java", "/repo/compiler/core/antlr/ZserioLexer.g4"]}
{"id": "C110", "title": "The compiler reads exactly the files a schema consists of, each once", "statement": "The compiler reads the input and the file of each package which is imported by a file it reads, also if imports are cyclic, and each file just once; then each imported package and symbol is known. A schema is accepted in this phase exactly if the input is stored in the file of its package and each import names a package which is declared in its file and a symbol which is defined there. The order of imports does not matter. There are no warnings about imports exactly if none is superfluous.", "quantifier": "all sets of files with all contents and imports, all inputs, source paths, extensions and top level packages", "why_tests_cant": "import relations are arbitrary directed graphs, with cycles and shared packages, and loading is a recursion over them", "anchors": ["/repo/compiler/core/src/zserio/tools/ZserioTool.java", "/repo/compiler/core/src/zserio/tools/InputFileManager.java", "/repo/compiler/core/src/zserio/ast/ZserioAstBuilder.java", "/repo/compiler/core/src/zserio/ast/Import.java", "/repo/compiler/core/src/zserio/ast/Package.java"]}
{"id": "C111", "title": "@index, offsets, implicit, packed and explicit are accepted exactly where they mean something", "statement": "A schema file passes the checks on its parse tree exactly if each declaration is right by itself, whatever is declared before or behind it: @index is used only in arguments of elements of arrays and once in the offset of an array which is not implicit; offsets consist of names, members and elements; implicit and packed belong to arrays, not both to one, implicit arrays have no length and must be allowed; optional fields have no condition; explicit is used in SQL tables only; virtual tables have a rowid.", "quantifier": "all files with any number of declarations in any order, all expressions of any depth in all places", "why_tests_cant": "the checks are made by a visitor with seven flags which are set and reset on the way through trees of any depth; a flag which is left behind is seen only for some combination of declarations", "anchors": ["/repo/compiler/core/src/zserio/ast/ZserioParseTreeChecker.java", "/repo/compiler/core/antlr/ZserioParser.g4", "/repo/doc/ZserioLanguageOverview.md"]}
{"id": "C112", "title": "columns of SQL tables have the documented SQL types, and SQLite stores their values unchanged", "statement": "Each field of an SQL table becomes a column of its name with the SQL type which the documentation gives for the type of the field, also through subtypes; with this declared type (or none, in FTS5 tables) SQLite never converts a value of the type of the field to another kind of value. Objects, enumeration items and bitmasks are converted in both directions with the class of the type, other values are passed on. The parameter provider of a table has exactly the methods which reading a row calls: one for each explicit argument, and different arguments never share one.", "quantifier": "all types of fields through any number of subtypes, all values of the fields, all virtual table modules, all lists of fields with any explicit arguments", "why_tests_cant": "types, values, chains of subtypes and combinations of explicit arguments in one table are unbounded", "anchors": ["/repo/compiler/core/src/zserio/extension/common/sql/SqlNativeTypeMapper.java", "/repo/compiler/extensions/python/src/zserio/extension/python/SqlTableEmitterTemplateData.java", "/repo/compiler/extensions/python/src/zserio/extension/python/PythonScopeSymbolClashChecker.java: checkExplicitParameters", "/repo/compiler/extensions/python/freemarker/SqlTable.py.ftl", "/repo/doc/ZserioLanguageOverview.md"]}
{"id": "C113", "title": "ZSERIO_PYTHON_IMPLEMENTATION decides which implementation of the runtime library is used", "statement": "import zserio never fails if the variable ZSERIO_PYTHON_IMPLEMENTATION is not set or is python. With python all classes are those of Python; with cpp or c++ all are those of the C++ module or an exception names a class which is missing; if the variable is not set, each class is that of the C++ module if it has it and that of Python otherwise.", "quantifier": "all values of the variable, all C++ modules with any classes, and no such module", "why_tests_cant": "the values of the variable and the contents of installed modules are not bounded; tests run with the implementations of the build", "anchors": ["/repo/compiler/extensions/python/runtime/src/zserio/cppbind.py: import_cpp_class", "/repo/compiler/extensions/python/runtime/src/zserio/exception.py", "/repo/compiler/extensions/python/runtime/src/zserio/bitbuffer.py", "/repo/compiler/extensions/python/runtime/src/zserio/bitreader.py", "/repo/compiler/extensions/python/runtime/src/zserio/bitwriter.py"]}
{"id": "C114", "title": "Generated code calls the runtime functions of the type of the field", "statement": "For every field of a built-in type, directly or through subtypes, the generated write, read, bitsizeof and initialize_offsets methods call functions and the arrays use array traits which exist in the runtime library with these arguments, and which implement the encoding the documentation gives for the type; therefore the size is the number of bits written and reading gives the written value back.", "quantifier": "all built-in types with all lengths of bit fields, all chains of subtypes, all values and positions", "why_tests_cant": "bit fields have arbitrary lengths also at run time, subtypes nest without bound and values are not bounded; a wrong name or argument shows only for the types which a test uses", "anchors": ["/repo/compiler/extensions/python/src/zserio/extension/python/RuntimeFunctionDataCreator.java", "/repo/compiler/extensions/python/src/zserio/extension/python/PythonNativeMapper.java", "/repo/compiler/extensions/python/src/zserio/extension/python/CompoundFieldTemplateData.java: BitSize", "/repo/compiler/extensions/python/freemarker/CompoundField.inc.ftl", "/repo/compiler/extensions/python/freemarker/ArrayTraits.inc.ftl"]}
{"id": "C115", "title": "Links of see tags lead to what their references name", "statement": "A @see reference in a documentation comment means what the schema names there: a member of the type in which the comment is, a member of a visible type (TYPE.FIELD), a visible type or constant, or a package; the link in the generated docstrings is the full name of the generated Python object for it, or a label for columns of SQL tables. A reference which cannot be resolved does not prevent the generation of code.", "quantifier": "all schemas with any packages, imports, declarations, templates and instantiations, all references of any length, in comments of all declarations", "why_tests_cant": "which declaration is meant depends on all packages and imports of a schema; tests check the documentation of a few schemas by comparing texts", "anchors": ["/repo/compiler/core/src/zserio/ast/SymbolReference.java: resolve", "/repo/compiler/core/src/zserio/ast/DocTagSee.java", "/repo/compiler/core/src/zserio/ast/ZserioAstSymbolResolver.java", "/repo/compiler/extensions/python/src/zserio/extension/python/DocCommentsTemplateData.java: DocTagSeeData", "/repo/compiler/extensions/python/src/zserio/extension/python/PythonNativeMapper.java: getPythonSymbol"]}
{"id": "C116", "title": "Extensions generate only after their checks, and the compiler stops at the first failure", "statement": "The compiler calls only extensions which were built for a compatible version, and says which ones it ignores. A schema with errors reaches no extension. An extension which is not enabled never generates. No extension generates before its own check has succeeded, and with the cross extension check (the default) nothing is generated if the check of any extension fails. The first exception of an extension ends the run, and the message names the extension. If the compiler says that it is done, exactly the enabled extensions have generated, each once.", "quantifier": "any number of loaded extensions with any versions, any outcomes of their checks and generators, any result of parsing, with and without cross extension check", "why_tests_cant": "tests load the extensions which exist, whose checks fail alike; which output exists after a failure depends on the order and the outcomes of all extensions", "anchors": ["/repo/compiler/core/src/zserio/tools/ExtensionManager.java", "/repo/compiler/core/src/zserio/tools/ZserioTool.java: process", "/repo/compiler/core/src/zserio/tools/ExtensionVersionMatcher.java"]}
{"id": "C117", "title": "One module is generated for each type, constant and instantiation of a template", "statement": "The Python generator writes exactly one module for each constant and each type which is no template, and one for each instantiation of a template, in the directory of the package it belongs to: the package of its template, or the package of the instantiate declaration which asks for it under its own name. Nothing is written for templates themselves and for rule groups, nor for SQL types, services and Pub/Sub types if their code is switched off. The module api of a package offers exactly what is generated in the package.", "quantifier": "all schemas with any packages, templates, nested instantiations and instantiate declarations in any packages, all options which switch off code", "why_tests_cant": "whether an instantiation is generated once depends on where all templates, references and instantiate declarations are; tests have a few schemas, with instantiate declarations whose arguments are no instantiations in other packages", "anchors": ["/repo/compiler/core/src/zserio/ast/ZserioAstTreeWalker.java", "/repo/compiler/core/src/zserio/ast/Package.java: getVisibleInstantiateType", "/repo/compiler/extensions/python/src/zserio/extension/python/PythonExtension.java: process", "/repo/compiler/extensions/python/src/zserio/extension/python/PythonDefaultEmitter.java", "/repo/compiler/extensions/python/src/zserio/extension/python/ApiEmitter.java"]}
{"id": "C118", "title": "Generated code can be imported if the code of SQL types, services or Pub/Sub types is switched off", "statement": "If -withoutSqlCode, -withoutServiceCode or -withoutPubsubCode is given then the modules of the types of that kind are not written, all other modules are the same as without the option, and all written modules, including the modules api, can still be imported in any order.", "quantifier": "all accepted schemas, all combinations of the options, all orders in which the modules are imported", "why_tests_cant": "whether a written module imports one which is not depends on all references of a schema; tests with the options have schemas without other names for the types which are switched off", "anchors": ["/repo/compiler/extensions/python/src/zserio/extension/python/SqlTableEmitter.java", "/repo/compiler/extensions/python/src/zserio/extension/python/SqlDatabaseEmitter.java", "/repo/compiler/extensions/python/src/zserio/extension/python/ServiceEmitter.java", "/repo/compiler/extensions/python/src/zserio/extension/python/PubsubEmitter.java", "/repo/compiler/extensions/python/src/zserio/extension/python/SubtypeEmitter.java", "/repo/compiler/extensions/python/src/zserio/extension/python/ApiEmitter.java", "/repo/compiler/core/src/zserio/ast/Subtype.java: resolve"]}
{"id": "C119", "title": "Errors in JSON texts are reported at the line and column where they are", "statement": "The line and column which the JSON parser reports with an exception, or after it returned, are those of the first character of the last token which was read: the line is one more than the number of line breaks (\\n, \\r\\n or \\r) before it, the column one more than the number of characters after the last of them. This does not depend on how the text is cut into pieces when it is read.", "quantifier": "all texts, all ways to read them in pieces, all observers (also those which raise exceptions)", "why_tests_cant": "a line break can be cut between two pieces at any place and positions accumulate over the whole text; tests check some short texts", "anchors": ["/repo/compiler/extensions/python/runtime/src/zserio/json.py: JsonTokenizer.next, get_line, get_column, _skip_whitespaces, _set_position, _set_token_value", "/repo/compiler/extensions/python/runtime/src/zserio/json.py: JsonParser.get_line, get_column, _raise_unexpected_token, parse", "/repo/compiler/extensions/python/runtime/src/zserio/json.py: JsonReader.read"]}
{"id": "C120", "title": "Markdown documentation comments keep their text and their links to schema files", "statement": "If code with comments is generated, a markdown documentation comment is split into paragraphs at blank lines, nothing of its text is lost except white space, and each markdown link to a schema file, or to a type in it, becomes a link to the package of that file or to that type, where paths are relative to the directory of the file with the comment. Other links, and paths which lead out of the directory of the schemas, stay as they are.", "quantifier": "all texts of comments, all packages, with and without top level package", "why_tests_cant": "the conversion works with regular expressions on arbitrary texts; tests have a few comments with links in simple places", "anchors": ["/repo/compiler/core/src/zserio/ast/DocCommentMarkdown.java: resolve, markdownToClassicLine, addMarkdownToDocLineElements, createSeeTagLink", "/repo/compiler/core/src/zserio/ast/PackageName.java: Builder", "/repo/compiler/core/src/zserio/tools/StringJoinUtil.java", "/repo/compiler/core/src/zserio/ast/DocTagSee.java"]}
{"id": "C121", "title": "Warnings for deprecated items of enumerations", "statement": "Asking an enumeration for an item, as an attribute, by subscript, by value, by from_name or by reading it from a stream, fires exactly one DeprecationWarning if the item is deprecated, and none if it is not deprecated or if there is an exception. Nothing else fires warnings: writing does not, and neither should type_info, which describes all items in their order with their marks.", "quantifier": "all enumerations with any marks of their items, all names and values", "why_tests_cant": "tests have a few enumerations with one deprecated item; whether warnings are fired for other items depends on all marks", "anchors": ["/repo/compiler/extensions/python/runtime/src/zserio/enum.py: _EnumType", "/repo/compiler/extensions/python/freemarker/Enumeration.py.ftl: from_name, from_reader, type_info, write", "/repo/compiler/extensions/python/runtime/src/zserio/typeinfo.py: ItemInfo"]}
{"id": "C122", "title": "Paragraphs of classic documentation comments", "statement": "A classic documentation comment is divided into paragraphs exactly at its empty lines, nothing is lost, added or moved, and each line of text belongs to the text or the todo or param tag above it, up to the next empty line or tag. This determines what is generated from a comment.", "quantifier": "all sequences of lines, tags and empty lines in a comment", "why_tests_cant": "the builder grows elements which it has already handed over, in a state which depends on all lines before; tests have a few comments", "anchors": ["/repo/compiler/core/src/zserio/ast/DocCommentAstBuilder.java: visitDocElement, visitDocTag, addDocElement", "/repo/compiler/core/src/zserio/ast/DocMultiline.java: addLine", "/repo/compiler/core/antlr/DocComment.g4: docElement"]}
{"id": "C123", "title": "Expressions count as the same exactly if they are", "statement": "Where the compiler asks whether two expressions are the same (duplicated cases of choices, duplicated offsets, conditions of optional fields), two expressions of a schema count as the same if and only if they have the same tree of the same symbols, apart from white space and from parentheses around the whole expression.", "quantifier": "all pairs of expressions which the parser accepts", "why_tests_cant": "expressions are compared by formatting them to texts; that no two different expressions have the same text depends on the grammar as a whole", "anchors": ["/repo/compiler/core/src/zserio/ast/ExpressionComparator.java: equals, removeParentheses, ComparisonExpressionFormattingPolicy", "/repo/compiler/core/src/zserio/extension/common/ExpressionFormatter.java: formatGetter", "/repo/compiler/core/src/zserio/extension/common/DefaultExpressionFormattingPolicy.java"]}
{"id": "C124", "title": "Names in expressions read what they mean", "statement": "In the code generated for expressions (conditions, lengths, constraints, functions, arguments), a path of fields and parameters of the schema reads the value which the path has in the object, both in the methods of its class and where elements of its arrays are created; a path whose field is not the chosen one of a choice or union has no value. Items of enumerations, values of bitmasks and constants are read by their full names however they are qualified in the schema.", "quantifier": "all objects of structures, choices and unions, nested in any way; all paths of fields and parameters; all types, items and constants, in any packages", "why_tests_cant": "the text of a name depends on its place in the path, the kind of the type, and the place of the expression in the generated code; tests try some combinations", "anchors": ["/repo/compiler/extensions/python/src/zserio/extension/python/PythonExpressionFormattingPolicy.java: getIdentifier, getDot, formatSymbolIdentifier", "/repo/compiler/extensions/python/src/zserio/extension/python/PythonStructExpressionFormattingPolicy.java", "/repo/compiler/extensions/python/src/zserio/extension/python/PythonChoiceExpressionFormattingPolicy.java", "/repo/compiler/extensions/python/freemarker/CompoundField.inc.ftl: compound_getter_field, field_member_name"]}
