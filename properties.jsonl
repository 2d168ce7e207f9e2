{"id": "C01", "title": "SAV > JSON > SAV is bit-for-bit identical", "statement": "For every well-formed GVAS image (header, property tree, trailer, with every custom blob in its canonical encoding), reading it with GvasFile.read, dumping it to JSON, loading the JSON back and calling GvasFile.write returns exactly the original bytes.", "quantifier": "all well-formed GVAS images: any number, nesting and types of properties, any strings, any trailer, any set of enabled custom decoders", "why_tests_cant": "The README promises bit-for-bit identity for every save; the tests check fourteen files.", "anchors": ["palworld_save_tools/gvas.py:GvasFile.read/dump/load/write", "palworld_save_tools/archive.py:FArchiveReader.properties_until_end", "palworld_save_tools/archive.py:FArchiveWriter.properties", "palworld_save_tools/json_tools.py:CustomEncoder"]}
{"id": "C02", "title": "Load then save in memory is the identity", "statement": "For every well-formed GVAS image, GvasFile.write applied directly to the result of GvasFile.read (no JSON in between) returns the original bytes.", "quantifier": "all well-formed GVAS images and all sets of enabled custom decoders", "why_tests_cant": "Infinitely many trees; the suite only round-trips through JSON on fixed files.", "anchors": ["palworld_save_tools/gvas.py:GvasFile.read", "palworld_save_tools/gvas.py:GvasFile.write"]}
{"id": "C03", "title": "Save then load returns the same document", "statement": "Writing a well-formed property tree and reading the bytes back returns the same tree: same names in the same order, same types, same ids, same values; the reader stops exactly at the end of what was written, whatever follows it.", "quantifier": "all well-formed property trees, all following bytes", "why_tests_cant": "Encode/decode inverse over an unbounded recursive type.", "anchors": ["palworld_save_tools/archive.py:FArchiveWriter.properties/property/property_inner", "palworld_save_tools/archive.py:FArchiveReader.properties_until_end/property"]}
{"id": "C04", "title": "JSON transport does not change what is written", "statement": "If an in-memory property tree can be written, and it survives json dump/load with the project's encoder, then the tree obtained from the JSON is written to exactly the same bytes.", "quantifier": "every value tree (not only those produced by the reader) without non-canonical NaNs or split surrogate pairs, every custom encoder", "why_tests_cant": "UUID objects become strings, tuples become lists; must hold for every shape the encoders accept.", "anchors": ["palworld_save_tools/json_tools.py:CustomEncoder.default", "palworld_save_tools/archive.py:FArchiveWriter.property_inner", "palworld_save_tools/archive.py:uuid_writer"]}
{"id": "C05", "title": "Writing twice gives the same bytes", "statement": "GvasFile.write mutates the tree in place (custom properties are replaced by raw bytes); nevertheless each further write of the same object returns exactly the bytes of the first.", "quantifier": "every tree for which the first write succeeds, every number of repeated writes", "why_tests_cant": "A history property over in-place mutation; tests write each object once.", "anchors": ["palworld_save_tools/gvas.py:GvasFile.write", "palworld_save_tools/rawdata/*.py:encode", "palworld_save_tools/archive.py:FArchiveWriter.property_inner"]}
{"id": "C06", "title": "Parsing terminates on every input", "statement": "GvasFile.read returns or raises on every byte string, however corrupt, for every configuration of hints and custom decoders; it never loops forever.", "quantifier": "all byte strings, all type hints, all assignments of the library's custom decoders to paths", "why_tests_cant": "Termination over all inputs, with nested decoders re-entering the property reader.", "anchors": ["palworld_save_tools/archive.py:FArchiveReader.properties_until_end", "palworld_save_tools/rawdata/dynamic_item.py:try_read_egg", "palworld_save_tools/rawdata/connector.py:decode_bytes"]}
{"id": "C07", "title": "Truncated property data is rejected", "statement": "Cutting a well-formed property list at any byte before its end makes reading raise, unless the cut falls inside a property name that has 'None' as a proper prefix.", "quantifier": "all well-formed property trees, all cut points", "why_tests_cant": "Every cut point of every file; short reads are silent in this reader, so it is not obvious.", "anchors": ["palworld_save_tools/archive.py:FArchiveReader.fstring", "palworld_save_tools/archive.py:FArchiveReader.properties_until_end", "palworld_save_tools/archive.py:FArchiveReader.read"]}
{"id": "C08", "title": "Choice of custom decoders does not affect the saved file", "statement": "Converting with any subset of --custom-properties (none, some, all) and converting the JSON back yields the same GVAS bytes, because the JSON records which decoder was applied.", "quantifier": "all subsets of the custom property table, all well-formed images", "why_tests_cant": "2^14 subsets times all files.", "anchors": ["palworld_save_tools/commands/convert.py:convert_sav_to_json", "palworld_save_tools/commands/convert.py:convert_json_to_sav", "palworld_save_tools/archive.py:FArchiveReader.property", "palworld_save_tools/archive.py:FArchiveWriter.property_inner"]}
{"id": "C09", "title": "Unknown types are never silently skipped", "statement": "Reading a property whose type name is not one of the eleven supported ones (and which has no custom decoder) raises; so does an unsupported array element type or map key/value type with at least one entry; writing an unknown property type, array element type, map element type or custom_type raises rather than emitting bytes.", "quantifier": "all type names, all following bytes, all value trees", "why_tests_cant": "Quantifies over all unknown names.", "anchors": ["palworld_save_tools/archive.py:FArchiveReader.property/prop_value/array_value", "palworld_save_tools/archive.py:FArchiveWriter.property_inner/prop_value/array_value"]}
{"id": "C10", "title": "Declared sizes are exact", "statement": "In every image written, the 64-bit size in each property tag equals the number of payload bytes following the tag header, so a reader that skips properties by size alone visits exactly the same property boundaries.", "quantifier": "all well-formed property trees", "why_tests_cant": "A wrong size is invisible to this project's own reader, which ignores sizes almost everywhere; the game does not.", "anchors": ["palworld_save_tools/archive.py:FArchiveWriter.property", "palworld_save_tools/archive.py:FArchiveWriter.property_inner", "palworld_save_tools/archive.py:FArchiveWriter.struct"]}
{"id": "C11", "title": "Re-saving reaches a fixed point after one pass", "statement": "For every byte string below 4 GiB accepted by the property reader without custom decoders (canonical or not) and with the default float handling, if the result can be written then reading what was written gives the same tree, and writing again gives the same bytes. (With --convert-nan-to-null an infinity becomes null and then NaN, so there the first re-read can differ.)", "quantifier": "all accepted byte strings", "why_tests_cant": "The CLI test compares second and third generation for fixed files only.", "anchors": ["palworld_save_tools/gvas.py:GvasFile.read", "palworld_save_tools/gvas.py:GvasFile.write"]}
{"id": "C12", "title": "Strings round-trip", "statement": "Every Python string the reader can return (any mix of ASCII, BMP, astral characters, and lone surrogates, embedded NULs) is written by fstring and read back unchanged, consuming exactly the bytes written; the return value of the writer's fstring is that byte count.", "quantifier": "all strings of encodable length without a split surrogate pair, all following bytes", "why_tests_cant": "All strings.", "anchors": ["palworld_save_tools/archive.py:FArchiveReader.fstring", "palworld_save_tools/archive.py:FArchiveWriter.fstring"]}
{"id": "C13", "title": "String encoding is canonical", "statement": "The writer stores the empty string as length 0, an ASCII string as length n+1 bytes with one NUL, and any other string as -(units+1) with UTF-16LE units and a two-byte NUL; two different strings never get the same encoding.", "quantifier": "all strings of encodable length without a split surrogate pair", "why_tests_cant": "Injectivity over all strings.", "anchors": ["palworld_save_tools/archive.py:FArchiveWriter.fstring"]}
{"id": "C14", "title": "Integers round-trip and out-of-range integers are rejected", "statement": "For each fixed-width writer (i16,u16,i32,u32,i64,u64,byte) and every integer: if it is in range it is written in exactly that many little-endian bytes and read back unchanged; otherwise the writer raises and never wraps.", "quantifier": "all integers, all seven widths", "why_tests_cant": "All integers, boundary values on both sides.", "anchors": ["palworld_save_tools/archive.py:FArchiveReader.i16..u64/byte", "palworld_save_tools/archive.py:FArchiveWriter.i16..u64/byte"]}
{"id": "C15", "title": "Single-precision floats survive the trip through doubles", "statement": "Every 32-bit float other than a signalling NaN that is read (as a Python double) and written again yields the same 32 bits; every non-NaN float also survives JSON. Writing any double as a 32-bit float gives the nearest single (ties to even), an infinity if the double is too large for a single, and never an error.", "quantifier": "all 2^32 bit patterns", "why_tests_cant": "2^32 cases including subnormals, and the rounding path.", "anchors": ["palworld_save_tools/archive.py:FArchiveReader.float", "palworld_save_tools/archive.py:FArchiveWriter.float"]}
{"id": "C16", "title": "NaN and None", "statement": "None is written as the canonical quiet NaN; the canonical NaN survives JSON bit for bit; any other NaN is replaced by the canonical one when it passes through JSON (so files containing it are not bit-identical).", "quantifier": "all NaN bit patterns", "why_tests_cant": "Exhibits the exact boundary of bit-for-bit identity.", "anchors": ["palworld_save_tools/archive.py:FArchiveWriter.float/double", "palworld_save_tools/commands/convert.py:convert_sav_to_json"]}
{"id": "C17", "title": "--convert-nan-to-null", "statement": "The help text says NaN, Inf and -Inf become null. Inf and -Inf do; a NaN never does (val == math.nan is always false), so dumping then raises instead of producing JSON. With NaN disallowed no document with a NaN or an infinity anywhere in it is written as JSON.", "quantifier": "all 32- and 64-bit float patterns", "why_tests_cant": "The claim is about every special value; the code is wrong for every NaN.", "anchors": ["palworld_save_tools/archive.py:FArchiveReader.float", "palworld_save_tools/archive.py:FArchiveReader.double", "palworld_save_tools/commands/convert.py:convert_sav_to_json"]}
{"id": "C18", "title": "UUID text form round-trips", "statement": "For every 16-byte UUID, str() gives 36 lower-case characters 8-4-4-4-12, and both UUID.from_str and the writer's guid() applied to that text give back the 16 raw bytes.", "quantifier": "all 2^128 UUIDs", "why_tests_cant": "One UUID is tested.", "anchors": ["palworld_save_tools/archive.py:UUID.__str__", "palworld_save_tools/archive.py:UUID.from_str", "palworld_save_tools/archive.py:uuid_writer"]}
{"id": "C19", "title": "UUID equality and hashing agree", "statement": "Two UUIDs are equal iff their raw bytes are equal iff their strings are equal, and equal UUIDs have equal hashes, so they work as dict keys; a UUID also equals (and hashes like) its own string.", "quantifier": "all pairs of UUIDs", "why_tests_cant": "All pairs.", "anchors": ["palworld_save_tools/archive.py:UUID.__eq__", "palworld_save_tools/archive.py:UUID.__hash__"]}
{"id": "C20", "title": "UUID matches the standard library", "statement": "For every 16-byte UUID, UUID.UUID() denotes the same 128-bit integer as parsing str(), and writing the stdlib object gives the same 16 bytes.", "quantifier": "all 2^128 UUIDs", "why_tests_cant": "Bit permutation over all values.", "anchors": ["palworld_save_tools/archive.py:UUID.UUID", "palworld_save_tools/archive.py:uuid_writer"]}
{"id": "C21", "title": "Packed vectors: write then read", "statement": "For all integer-valued components of magnitude below 2^52, writing a packed vector with scale 1 and reading it back returns numerically equal components, consuming exactly the bytes written; the bit count stored is the minimal two's complement width.", "quantifier": "all integer triples with components of magnitude < 2^52", "why_tests_cant": "16 triples are tested.", "anchors": ["palworld_save_tools/archive.py:FArchiveWriter.packed_vector", "palworld_save_tools/archive.py:FArchiveReader.packed_vector", "palworld_save_tools/archive.py:FArchiveWriter.unreal_get_bits_needed"]}
{"id": "C22", "title": "Packed vectors: fractional parts are dropped", "statement": "unreal_round_float_to_int truncates toward zero, so with scale 1 a non-integer component is not preserved; the value read back is the truncation of the value written.", "quantifier": "all finite doubles of magnitude < 2^52", "why_tests_cant": "Characterises the loss exactly.", "anchors": ["palworld_save_tools/archive.py:FArchiveWriter.unreal_round_float_to_int", "palworld_save_tools/archive.py:FArchiveWriter.packed_vector"]}
{"id": "C23", "title": "Compressed rotators round-trip", "statement": "For every triple of 16-bit angles, reading the compressed rotator to degrees and writing it back yields the same canonical bytes.", "quantifier": "all 65536^3 angle triples", "why_tests_cant": "Depends on double rounding of x*(360/65536)*(65536/360) for each value.", "anchors": ["palworld_save_tools/archive.py:FArchiveReader.compressed_short_rotator", "palworld_save_tools/archive.py:FArchiveWriter.compressed_short_rotator"]}
{"id": "C24", "title": "SAV container round-trips", "statement": "For every byte string whose raw and once-compressed lengths fit 32 bits and for save types 0x31 and 0x32, decompress_sav_to_gvas(compress_gvas_to_sav(d, t)) returns (d, t), given only that zlib.decompress inverts zlib.compress.", "quantifier": "all byte strings, both save types, any zlib satisfying the inverse law", "why_tests_cant": "All payloads.", "anchors": ["palworld_save_tools/palsav.py:compress_gvas_to_sav", "palworld_save_tools/palsav.py:decompress_sav_to_gvas"]}
{"id": "C25", "title": "SAV container validation is exact", "statement": "decompress_sav_to_gvas accepts exactly the files in the documented layout (optional CNK prefix, PlZ magic, type 0x31/0x32, both lengths correct, streams inflate) and raises on everything else, including short files and wrong lengths.", "quantifier": "all byte strings", "why_tests_cant": "All malformed files.", "anchors": ["palworld_save_tools/palsav.py:decompress_sav_to_gvas"]}
{"id": "C26", "title": "GVAS header round-trips and bad headers are rejected", "statement": "Every header with the accepted magic and versions survives write/read and dump/load; a header with a different magic, save game version or custom version format is rejected.", "quantifier": "all headers, all custom version lists", "why_tests_cant": "One header is tested.", "anchors": ["palworld_save_tools/gvas.py:GvasHeader.read/write/load/dump", "palworld_save_tools/gvas.py:custom_version_reader/writer"]}
{"id": "C27", "title": "Trailer bytes are preserved", "statement": "Whatever bytes follow the property list (not only four zero bytes) are preserved by read, by base64 in dump/load, and by write.", "quantifier": "all byte strings as trailer", "why_tests_cant": "All trailers; tests have only the standard one.", "anchors": ["palworld_save_tools/gvas.py:GvasFile.read", "palworld_save_tools/gvas.py:GvasFile.dump", "palworld_save_tools/gvas.py:GvasFile.load", "palworld_save_tools/gvas.py:GvasFile.write"]}
{"id": "C28", "title": "Group data blobs round-trip", "statement": "Every canonical raw-data blob of this kind decodes to the documented fields, and encoding those fields (directly or after JSON) gives back the same bytes, for every group type (guild, independent guild, organization, other).", "quantifier": "all canonical blobs: all field values, list lengths and strings", "why_tests_cant": "Hand-written parallel encoder/decoder pairs; a field swapped in one of them is only visible on data that has it.", "anchors": ["palworld_save_tools/rawdata/group.py"]}
{"id": "C29", "title": "Character data blobs round-trip", "statement": "Every canonical raw-data blob of this kind decodes to the documented fields, and encoding those fields (directly or after JSON) gives back the same bytes, for any embedded property list.", "quantifier": "all canonical blobs: all field values, list lengths and strings", "why_tests_cant": "Hand-written parallel encoder/decoder pairs; a field swapped in one of them is only visible on data that has it.", "anchors": ["palworld_save_tools/rawdata/character.py"]}
{"id": "C30", "title": "Item and character containers blobs round-trip", "statement": "Every canonical raw-data blob of this kind decodes to the documented fields, and encoding those fields (directly or after JSON) gives back the same bytes, including the empty blob, which decodes to null.", "quantifier": "all canonical blobs: all field values, list lengths and strings", "why_tests_cant": "Hand-written parallel encoder/decoder pairs; a field swapped in one of them is only visible on data that has it.", "anchors": ["palworld_save_tools/rawdata/item_container.py", "palworld_save_tools/rawdata/item_container_slots.py", "palworld_save_tools/rawdata/character_container.py"]}
{"id": "C31", "title": "Dynamic items blobs round-trip", "statement": "Every canonical raw-data blob of this kind decodes to the documented fields, and encoding those fields (directly or after JSON) gives back the same bytes, for eggs, armor, weapons and unknown trailers, provided the variant is the one the decoder's heuristics pick.", "quantifier": "all canonical blobs: all field values, list lengths and strings", "why_tests_cant": "Hand-written parallel encoder/decoder pairs; a field swapped in one of them is only visible on data that has it.", "anchors": ["palworld_save_tools/rawdata/dynamic_item.py"]}
{"id": "C32", "title": "Foliage blobs round-trip", "statement": "Every canonical raw-data blob of this kind decodes to the documented fields, and encoding those fields (directly or after JSON) gives back the same bytes, including the packed transform.", "quantifier": "all canonical blobs: all field values, list lengths and strings", "why_tests_cant": "Hand-written parallel encoder/decoder pairs; a field swapped in one of them is only visible on data that has it.", "anchors": ["palworld_save_tools/rawdata/foliage_model.py", "palworld_save_tools/rawdata/foliage_model_instance.py"]}
{"id": "C33", "title": "Base camps, worker directors, work collections blobs round-trip", "statement": "Every canonical raw-data blob of this kind decodes to the documented fields, and encoding those fields (directly or after JSON) gives back the same bytes.", "quantifier": "all canonical blobs: all field values, list lengths and strings", "why_tests_cant": "Hand-written parallel encoder/decoder pairs; a field swapped in one of them is only visible on data that has it.", "anchors": ["palworld_save_tools/rawdata/base_camp.py", "palworld_save_tools/rawdata/worker_director.py", "palworld_save_tools/rawdata/work_collection.py"]}
{"id": "C34", "title": "Base camp modules blobs round-trip", "statement": "Every canonical raw-data blob of this kind decodes to the documented fields, and encoding those fields (directly or after JSON) gives back the same bytes, for no-op, transport, passive-effect and unknown module types.", "quantifier": "all canonical blobs: all field values, list lengths and strings", "why_tests_cant": "Hand-written parallel encoder/decoder pairs; a field swapped in one of them is only visible on data that has it.", "anchors": ["palworld_save_tools/rawdata/base_camp_module.py"]}
{"id": "C35", "title": "Work data blobs round-trip", "statement": "Every canonical raw-data blob of this kind decodes to the documented fields, and encoding those fields (directly or after JSON) gives back the same bytes, for every parsed work type and transform type 1-3, and for work assignments.", "quantifier": "all canonical blobs: all field values, list lengths and strings", "why_tests_cant": "Hand-written parallel encoder/decoder pairs; a field swapped in one of them is only visible on data that has it.", "anchors": ["palworld_save_tools/rawdata/work.py"]}
{"id": "C36", "title": "Map object models, connectors, build processes blobs round-trip", "statement": "Every canonical raw-data blob of this kind decodes to the documented fields, and encoding those fields (directly or after JSON) gives back the same bytes.", "quantifier": "all canonical blobs: all field values, list lengths and strings", "why_tests_cant": "Hand-written parallel encoder/decoder pairs; a field swapped in one of them is only visible on data that has it.", "anchors": ["palworld_save_tools/rawdata/map_model.py", "palworld_save_tools/rawdata/connector.py", "palworld_save_tools/rawdata/build_process.py", "palworld_save_tools/rawdata/map_object.py"]}
{"id": "C37", "title": "Map object concrete models blobs round-trip", "statement": "Every canonical raw-data blob of this kind decodes to the documented fields, and encoding those fields (directly or after JSON) gives back the same bytes, for every concrete model class in the table.", "quantifier": "all canonical blobs: all field values, list lengths and strings", "why_tests_cant": "Hand-written parallel encoder/decoder pairs; a field swapped in one of them is only visible on data that has it.", "anchors": ["palworld_save_tools/rawdata/map_concrete_model.py"]}
{"id": "C38", "title": "Concrete model modules blobs round-trip", "statement": "Every canonical raw-data blob of this kind decodes to the documented fields, and encoding those fields (directly or after JSON) gives back the same bytes, for every module type.", "quantifier": "all canonical blobs: all field values, list lengths and strings", "why_tests_cant": "Hand-written parallel encoder/decoder pairs; a field swapped in one of them is only visible on data that has it.", "anchors": ["palworld_save_tools/rawdata/map_concrete_model_module.py"]}
{"id": "C39", "title": "Blob decoders reject leftover bytes", "statement": "Every blob decoder that checks for end of data raises if extra bytes follow a complete record; none of them silently drops data. (False for base camp modules: leftovers are dropped after a printed warning.)", "quantifier": "all canonical blobs, all non-empty suffixes", "why_tests_cant": "All suffixes.", "anchors": ["palworld_save_tools/rawdata/*.py:decode_bytes", "palworld_save_tools/archive.py:FArchiveReader.eof"]}
{"id": "C40", "title": "What decodes can be encoded", "statement": "Every file accepted without custom decoders can be written again, except exactly those holding a non-empty array of GUIDs. Every raw-data blob below 4 GiB that a custom decoder accepts is kept as its bytes or can be encoded again, except: work data of an unparsed work type or with an unknown transform type, empty connector blobs, foliage instances with a NaN or null coordinate, and blobs whose embedded property list has a non-empty array of GUIDs.", "quantifier": "all blobs of all decoders", "why_tests_cant": "Needs a search over all fallbacks in the decoders.", "anchors": ["palworld_save_tools/rawdata/work.py:decode_bytes/encode_bytes", "palworld_save_tools/archive.py:FArchiveReader.array_value", "palworld_save_tools/archive.py:FArchiveWriter.array_value"]}
{"id": "C41", "title": "No overwrite without consent", "statement": "The convert command never changes a file that already exists unless --force was given or the user answered y.", "quantifier": "all file systems, arguments and user replies", "why_tests_cant": "All histories of replies and file-system states.", "anchors": ["palworld_save_tools/commands/convert.py:convert_sav_to_json", "palworld_save_tools/commands/convert.py:convert_json_to_sav", "palworld_save_tools/commands/convert.py:confirm_prompt"]}
{"id": "C42", "title": "Default output names are inverse", "statement": "For X.sav the default JSON output is X.sav.json, and the default output for that JSON file is X.sav again, provided the original path does not itself contain '.json'.", "quantifier": "all paths", "why_tests_cant": "Substring replacement over all paths; false for paths containing '.json'.", "anchors": ["palworld_save_tools/commands/convert.py:main"]}
{"id": "C43", "title": "--to-json / --from-json override the file extension", "statement": "With --to-json only a SAV-to-JSON conversion is run, and with --from-json only a JSON-to-SAV conversion, regardless of extension. (False: the two tests are independent ifs.)", "quantifier": "all file names and flags", "why_tests_cant": "All combinations of flags and names.", "anchors": ["palworld_save_tools/commands/convert.py:main"]}
{"id": "C44", "title": "A failed conversion leaves the output file alone", "statement": "If a conversion raises, the output path keeps its previous content. (True for JSON-to-SAV; for SAV-to-JSON true for every error up to opening the output, false when JSON serialisation itself fails.)", "quantifier": "all inputs, all error points", "why_tests_cant": "All failure points.", "anchors": ["palworld_save_tools/commands/convert.py:convert_sav_to_json", "palworld_save_tools/commands/convert.py:convert_json_to_sav"]}
{"id": "C45", "title": "Save type selection", "statement": "convert_json_to_sav uses type 0x32 exactly when the save game class name contains Pal.PalWorldSaveGame or Pal.PalLocalWorldSaveGame, and 0x31 otherwise; either way the file it writes is accepted by decompress_sav_to_gvas with that type.", "quantifier": "all class names, all documents", "why_tests_cant": "All class names.", "anchors": ["palworld_save_tools/commands/convert.py:convert_json_to_sav"]}
{"id": "C46", "title": "Prompt loop", "statement": "confirm_prompt returns true iff the first reply that is y or n (ignoring case) is y, and keeps asking until it sees one.", "quantifier": "all reply sequences", "why_tests_cant": "Unbounded sequences.", "anchors": ["palworld_save_tools/commands/convert.py:confirm_prompt"]}
{"id": "C47", "title": "resave_test verdict is right", "statement": "The resave test reports success exactly when the decompressed payload and the save type of the re-saved file equal those of the input.", "quantifier": "all input files", "why_tests_cant": "All files.", "anchors": ["palworld_save_tools/commands/resave_test.py:main"]}
{"id": "C48", "title": "Writing does not depend on type hints", "statement": "Struct types of map keys and values are recorded in the tree when reading, so writing needs no hints and gives the same bytes whatever hints were used for reading (provided the reading succeeded on a canonical image).", "quantifier": "all hint tables, all well-formed images", "why_tests_cant": "All hint tables.", "anchors": ["palworld_save_tools/archive.py:FArchiveReader.get_type_or", "palworld_save_tools/archive.py:FArchiveReader.property", "palworld_save_tools/archive.py:FArchiveWriter.property_inner"]}
{"id": "C49", "title": "Custom property registry is coherent", "statement": "Every path in the custom property table is decoded and encoded by partner functions expecting the same property type, a default --custom-properties selects exactly the whole table, and any tree read with the table can name only encoders that exist at write time.", "quantifier": "the whole table, all trees read", "why_tests_cant": "Quantifies over all trees read.", "anchors": ["palworld_save_tools/paltypes.py:PALWORLD_CUSTOM_PROPERTIES", "palworld_save_tools/commands/convert.py:main"]}
{"id": "C50", "title": "Property names: order kept, duplicates collapse", "statement": "Distinct property names are kept in file order; if a name occurs twice in one list the reader keeps the first position and the last value, so such a file does not round-trip.", "quantifier": "all property lists", "why_tests_cant": "All lists.", "anchors": ["palworld_save_tools/archive.py:FArchiveReader.properties_until_end"]}
{"id": "C51", "title": "Re-saving never makes a file longer", "statement": "If a file below 4 GiB is read without custom decoders and the result is written, the output is no longer than the input: the canonical form is the shortest of all encodings the reader accepts for that tree.", "quantifier": "all accepted files, canonical or not", "why_tests_cant": "Ranges over every byte string the lenient reader accepts, not just files the writer produced.", "anchors": ["palworld_save_tools/gvas.py:GvasFile.read", "palworld_save_tools/gvas.py:GvasFile.write"]}
{"id": "C52", "title": "Re-encoding a blob reaches a fixed point and never grows it", "statement": "If a raw-data blob below 4 GiB, canonical or not, is decoded and the result is encoded, the bytes are no longer than the blob and decode to the same value with nothing left over. Foliage instances (packed coordinates) are exempt, and a weapon whose bytes look like an egg need not decode to the same value.", "quantifier": "all accepted blobs of all decoders but foliage instances", "why_tests_cant": "Ranges over every byte string the lenient decoders accept, not just blobs the encoders produced.", "anchors": ["palworld_save_tools/rawdata", "palworld_save_tools/archive.py:FArchiveReader", "palworld_save_tools/archive.py:FArchiveWriter"]}
{"id": "C53", "title": "Values kept inside UUID objects are invisible", "statement": "A UUID object computes its text and its standard-library UUID when first needed and keeps them. Whatever objects a program creates, and in whatever order and how often it prints, converts, compares or hashes them, each call returns what the object's raw bytes alone determine.", "quantifier": "all histories of calls on any number of UUID objects, any raw bytes", "why_tests_cant": "Quantifies over all call histories.", "anchors": ["palworld_save_tools/archive.py:UUID"]}
{"id": "C54", "title": "Re-saving with decoded raw data reaches a fixed point and never grows a file", "statement": "Read a file below 4 GiB, canonical or not, with any selection of the tool's custom decoders that leaves out dynamic items and foliage instances, and with the default float handling. If the result can be written (with the full table of encoders), then reading what was written gives the same tree, decoded raw data included; writing it again gives the same bytes; and the output is no longer than the input. With dynamic items a weapon can come back as an egg, and with foliage instances a coordinate is rounded, so there the claim fails.", "quantifier": "all accepted byte strings and all such selections of decoders", "why_tests_cant": "Ranges over every byte string the lenient reader and the lenient decoders accept; the tests use a few files.", "anchors": ["palworld_save_tools/gvas.py:GvasFile.read", "palworld_save_tools/gvas.py:GvasFile.write", "palworld_save_tools/paltypes.py:PALWORLD_CUSTOM_PROPERTIES", "palworld_save_tools/rawdata"]}
{"id": "C55", "title": "Going through JSON is the same as re-saving, for every accepted file", "statement": "Read any bytes that the reader accepts, canonical or not, with any selection of the tool's custom decoders. If the file object can be written and can be converted to JSON, and every NaN in it is the standard one, then loading the JSON and writing gives exactly the bytes that writing the file object directly gives. Conversion to JSON (NaN allowed, the default) fails only when a GUID lacks bytes because its blob ended early. For the selections of C54, converting the output to JSON gives the same document again.", "quantifier": "all accepted byte strings, all selections of decoders, all type hints", "why_tests_cant": "Ranges over every byte string the lenient reader and decoders accept; the tests convert a few well-formed files.", "anchors": ["palworld_save_tools/gvas.py:GvasFile.dump", "palworld_save_tools/gvas.py:GvasFile.load", "palworld_save_tools/json_tools.py:CustomEncoder", "palworld_save_tools/commands/convert.py"]}
{"id": "C56", "title": "JSON files are plain JSON text, whatever their layout", "statement": "What the converter writes, indented or minified, is ASCII text holding one JSON value that denotes the document; when NaN is not allowed it is JSON as of RFC 8259, otherwise NaN, Infinity and -Infinity may occur. Reading accepts exactly the UTF-8 files with one such value, with any white space, any escapes and any spelling of numbers, and gives the value they denote (floats: the nearest double); every other file raises ValueError or UnicodeDecodeError. Reading what was written gives the document back, and writing raises exactly when the document has no JSON form.", "quantifier": "all documents, all byte strings given to the reader, both layouts, both NaN settings, all doubles", "why_tests_cant": "Ranges over every document, every double and every text a user or another tool may produce.", "anchors": ["palworld_save_tools/commands/convert.py:convert_sav_to_json", "palworld_save_tools/commands/convert.py:convert_json_to_sav", "palworld_save_tools/json_tools.py:CustomEncoder"]}
{"id": "C57", "title": "A file cut short is never taken for a complete one", "statement": "If writing the JSON of a save file stops at any byte, by a crash or because serialisation raises, what is left is rejected when it is converted back, and no file is written. If a conversion to JSON raises, either no file has changed or the output is not accepted as JSON. A singly compressed save file with bytes missing at its end is rejected, and so is every save file written by the tools and then cut (for double compression assuming that zlib rejects a stream that is cut).", "quantifier": "all readable save files, all crash points while an output is written, both layouts, both NaN settings", "why_tests_cant": "Quantifies over all crash points and all files.", "anchors": ["palworld_save_tools/commands/convert.py:convert_sav_to_json", "palworld_save_tools/commands/convert.py:convert_json_to_sav", "palworld_save_tools/palsav.py:decompress_sav_to_gvas", "palworld_save_tools/palsav.py:compress_gvas_to_sav"]}
{"id": "C58", "title": "An edited document is written as it says", "statement": "A JSON document may be edited or written by hand before it is converted back. Whenever it is converted without an exception, the save file holds exactly what the document says: for each property in order its name, type, id and value, where integer fields take ints and bools in range, float fields take None, floats and ints (rounded to nearest), GUIDs are objects or any text the standard library accepts, a missing id is no id, and a property with a known custom type says the bytes that its decoded raw data says (C59). Conversely every document that says a save file is written to that file. A document says at most one file. Reading the file back gives a document that says the same file, unless it has one of the arrays that the tool writes but cannot read.", "quantifier": "all documents (value trees of any shape and depth), all JSON files, all property tables passed to the writer", "why_tests_cant": "The documents are arbitrary trees of Python values, not only those the reader produces; every combination of type, container and key order counts.", "anchors": ["palworld_save_tools/gvas.py:GvasFile.load", "palworld_save_tools/gvas.py:GvasFile.write", "palworld_save_tools/archive.py:FArchiveWriter.properties", "palworld_save_tools/archive.py:FArchiveWriter.property_inner", "palworld_save_tools/commands/convert.py:convert_json_to_sav"]}
{"id": "C59", "title": "Edited raw data is encoded as it says", "statement": "The dict of a decoded raw-data blob (groups, characters, containers, dynamic items, foliage, base camps, work, map objects) may be edited before it is encoded. Whenever encoding succeeds, the bytes are those of the record that the dict says, field by field under the documented keys: ints and bools in range, floats rounded to nearest, GUIDs as objects or text, lists item by item, angles as the nearest 16-bit angle of a turn, locations as integers of minimal width. Every dict that says a record is encoded, whatever further keys it has and in whatever order. Where a record can be decoded (C28-C36), decoding the bytes gives the record that the dict says.", "quantifier": "all raw-data dicts (value trees of any shape), all types beside the blob, all embedded property lists", "why_tests_cant": "The dicts are arbitrary trees; every field can be edited to any value of any type.", "anchors": ["palworld_save_tools/rawdata/group.py:encode_bytes", "palworld_save_tools/rawdata/character.py:encode_bytes", "palworld_save_tools/rawdata/item_container.py:encode_bytes", "palworld_save_tools/rawdata/dynamic_item.py:encode_bytes", "palworld_save_tools/rawdata/foliage_model_instance.py:encode_bytes", "palworld_save_tools/rawdata/base_camp.py:encode_bytes", "palworld_save_tools/rawdata/work.py:encode_bytes", "palworld_save_tools/rawdata/map_model.py:encode_bytes", "palworld_save_tools/rawdata/map_concrete_model.py:encode_bytes", "palworld_save_tools/rawdata/map_concrete_model_module.py:encode_bytes"]}
{"id": "C60", "title": "An edit changes one place of the file and nothing else", "statement": "Convert a well-formed save file to JSON, change one value of the document (a number, text, truth value, GUID, a component of a vector, an element of an array, at any depth of structs, arrays and maps outside decoded raw data) or take one property out, and convert back: the new file is the old one with exactly that value changed or that property gone. If the new value takes as many bytes as the old one, its bytes replace the old ones and every other byte of the file stays; in any case the length changes by the difference. Reading the new file gives exactly the edited document.", "quantifier": "all well-formed files, all places in their trees, all new values, every selection of custom properties, in memory, through JSON and through the commands with any layout of the edited text", "why_tests_cant": "Ranges over all files, all places of arbitrary depth and all values; sizes of every enclosing property must be recomputed rightly.", "anchors": ["palworld_save_tools/gvas.py:GvasFile.read", "palworld_save_tools/gvas.py:GvasFile.write", "palworld_save_tools/archive.py:FArchiveWriter.properties", "palworld_save_tools/archive.py:FArchiveReader.properties_until_end", "palworld_save_tools/commands/convert.py:main"]}
{"id": "C61", "title": "Every file is shown as what its bytes say", "statement": "Reading a byte string succeeds exactly if it is a file: a header with the right magic, version and format, a property list, and any bytes after it; and then the document shows exactly what the bytes say: each property under its path with its type, ids, sizes and values, integers as two's complement, floats widened exactly (NaN and infinities as null if asked), texts in either encoding, any nonzero byte as true, structs by their struct type or the hint for the path, map entries and array elements in order, a repeated name at its first place with its last value, and the trailing bytes in base64. This includes files the tool would never write.", "quantifier": "all byte strings, all configurations of type hints, NaN handling and custom properties", "why_tests_cant": "Ranges over all byte strings; round-trip tests only see files the tool itself could write.", "anchors": ["palworld_save_tools/gvas.py:GvasFile.read", "palworld_save_tools/gvas.py:GvasHeader.read", "palworld_save_tools/archive.py:FArchiveReader.properties_until_end", "palworld_save_tools/archive.py:FArchiveReader.property", "palworld_save_tools/archive.py:FArchiveReader.struct_value", "palworld_save_tools/archive.py:FArchiveReader.fstring"]}
{"id": "C62", "title": "Raw data is shown as what its bytes say", "statement": "For every kind of custom property (groups, characters, items, containers, base camps, work, map objects, foliage, ...) the decoder succeeds on a plain property exactly if its byte arrays are blobs of the kind's layout, and then the document shows, at the place of the byte array, exactly the fields the bytes say, in order and under their names: which fields there are depends on the type stored beside the blob, an empty array is shown as no value where the kind allows that, blobs of unknown types are kept as they are, and property lists embedded in blobs are shown like any other list, with their own custom properties. A whole file with custom properties is read exactly if it is a file in this sense, and then shown as such, and the reading is unambiguous.", "quantifier": "all kinds of custom properties, all values of the plain property, all blobs, all byte strings as files, all configurations", "why_tests_cant": "Ranges over all bytes of all blobs, also those the tool would never write, and over lists nested in blobs to any depth.", "anchors": ["palworld_save_tools/rawdata/group.py:decode_bytes", "palworld_save_tools/rawdata/character.py:decode_bytes", "palworld_save_tools/rawdata/dynamic_item.py:decode_bytes", "palworld_save_tools/rawdata/map_concrete_model.py:decode_bytes", "palworld_save_tools/rawdata/work.py:decode_bytes", "palworld_save_tools/rawdata/foliage_model_instance.py:decode_bytes", "palworld_save_tools/archive.py:FArchiveReader.property"]}
{"id": "C63", "title": "The JSON file says what the save file says", "statement": "The command that converts a save file to JSON succeeds exactly if the output does not exist or the user agrees to replace it (option or replies), the output can be opened, the input is a SAV container (single or double compression) of a save file, and what the file says is in JSON (a GUID cut short is not; nor is, where conversion to null was asked for, a NaN or infinity that the reader left as it is). Then the output is an ASCII text, with or without indentation, that denotes exactly what the bytes of the save file say for the selected custom properties, NaN and infinities as the options say, GUIDs as their text and the bytes after the properties in base64; no other file has changed.", "quantifier": "all file systems, all replies, all input bytes, all selections of custom properties, all options, any zlib, any shortest text of floats", "why_tests_cant": "Ranges over all input files, also those the tool would never write, and over all file systems and replies.", "anchors": ["palworld_save_tools/commands/convert.py:convert_sav_to_json", "palworld_save_tools/palsav.py:decompress_sav_to_gvas", "palworld_save_tools/gvas.py:GvasFile.read", "palworld_save_tools/gvas.py:GvasFile.dump", "palworld_save_tools/json_tools.py:CustomEncoder"]}
{"id": "C64", "title": "The save file holds what the JSON file says", "statement": "The command that converts JSON to a save file succeeds exactly if the output does not exist or the user agrees to replace it, the output can be opened, the input is a JSON text, the document it denotes says a save file (every property with its type, numbers in range, texts, GUIDs, edited raw data), and the bytes of that file, plain and compressed, number less than 2^32. Then the output is a SAV container of exactly these bytes, of the double-compressed type exactly if the class name is one of the world classes; no other file has changed.", "quantifier": "all file systems, all replies, all JSON texts, any lossless zlib", "why_tests_cant": "Ranges over all JSON texts, also hand-edited ones, and over all file systems and replies.", "anchors": ["palworld_save_tools/commands/convert.py:convert_json_to_sav", "palworld_save_tools/gvas.py:GvasFile.load", "palworld_save_tools/gvas.py:GvasFile.write", "palworld_save_tools/palsav.py:compress_gvas_to_sav"]}
{"id": "C65", "title": "An interrupted conversion does no harm elsewhere, is noticed, and can be repeated", "statement": "Whenever the process of a command dies (kill, power loss, full disk, at any byte of the output), either no file has changed, or the user had agreed to replace the output (or it did not exist), no other file has changed, and the output holds a beginning of what the command would have written. Unless that beginning is all of it, the tool refuses to convert it back and changes nothing. After any number of interrupted attempts, the command with --force succeeds exactly if it would have succeeded at once, and then all files are as if it had. The resave test changes only its own two files at any moment. (The old contents of an output that is replaced are not safe: every conversion to a save file passes through the empty file and every beginning of the new one.)", "quantifier": "all moments of a run down to single bytes, all numbers of attempts, all file systems, inputs, options and replies", "why_tests_cant": "Ranges over all crash points of all runs and over all histories of attempts.", "anchors": ["palworld_save_tools/commands/convert.py:convert_sav_to_json", "palworld_save_tools/commands/convert.py:convert_json_to_sav", "palworld_save_tools/commands/convert.py:main", "palworld_save_tools/commands/resave_test.py:main", "palworld_save_tools/palsav.py:decompress_sav_to_gvas"]}
{"id": "C66", "title": "Conversions running at the same time do not disturb each other", "statement": "If several conversions run at the same time and no output is the input or output of another one, then under every schedule of their steps each ends with the result, and leaves in its output what it would have on its own; at no moment has any other file changed. So the schedule does not matter. No schedule is infinite, and a conversion that has not ended can go on.", "quantifier": "all schedules, any number of conversions, all inputs, options and replies", "why_tests_cant": "Ranges over all interleavings of any number of processes.", "anchors": ["palworld_save_tools/commands/convert.py:convert_sav_to_json", "palworld_save_tools/commands/convert.py:convert_json_to_sav"]}
{"id": "C67", "title": "The generated table names, for every map object, the class its blueprints lead to", "statement": "The script that makes the table of concrete classes enters an object exactly if its row (the last one with this name up to case that names a blueprint of the export) leads to a class, and the entry is the class of the game at the end of the chain of blueprints from the class set by the object's blueprint or by the one it extends, whatever the length of the chain. If the chain of one object runs in a circle no table is printed, for no limit on recursion, and a run that does not reach the limit does the same with every larger one. Blueprints further up are not asked for the class.", "quantifier": "all exports (any number of files, objects and rows, chains of any length), every limit on recursion", "why_tests_cant": "Ranges over all exports and over chains of every length.", "anchors": ["scripts/extract_map_object_concrete_classes.py:main", "scripts/extract_map_object_concrete_classes.py:resolve_concrete_class_name", "scripts/extract_map_object_concrete_classes.py:resolve_object_super_concrete_class_name"]}
{"id": "C68", "title": "A command line means what its words say", "statement": "A command line that asks for exactly one file is accepted and means exactly its items: the file, each flag that stands there, the last output and the last list of custom properties (split at commas, without white space around; all known ones by default), in whatever order and with whichever accepted spelling they are given (unambiguous abbreviations, --opt v, --opt=v, -o v, -ov, -o=v, -fo v). Lines with no file or several are refused. After -- the next word is the file, whatever it is called. On every line that is accepted, nothing is done that no word asks for, and a misspelled option is never ignored. Every line is accepted, or the command ends with the usage or the help text without having touched a file (help is printed whatever else the line says); so on every line a file that was there changes only if some word asks for --force or the user said yes.", "quantifier": "all command lines (any number of words, any texts), orders and spellings, all file systems and replies", "why_tests_cant": "Ranges over all lists of words.", "anchors": ["palworld_save_tools/commands/convert.py:main"]}
{"id": "C69", "title": "A run of the converter does exactly what its command line asks for", "statement": "For every command line with exactly one file x, spelled in any accepted way. If x is not an existing file the run fails and nothing changes; --to-json together with --from-json is refused and nothing changes; if neither the line nor the name (.sav, .json) gives a direction, nothing is done. If only JSON is asked for, the run succeeds exactly if the user lets the output be replaced (it is free, --force, or the first clear reply is yes), the output can be opened, x is a SAV container of a save file, and its content can be put in JSON; then the output (the last non-empty --output, otherwise x.json) is a JSON text that says exactly what the save file says, with the selected custom properties, and no other file has changed. If only a save file is asked for, the run succeeds exactly if the output may be replaced and opened and x is a JSON text of a document that says a save file small enough for a container; then the output (the last non-empty --output, otherwise x with every .json taken out) is a container of exactly that file and of the type its class asks for, and no other file has changed.", "quantifier": "all command lines of the grammar of C68 with one file, all file systems, replies and file contents, all compressors with the inverse law", "why_tests_cant": "Ranges over all command lines, all file contents and all file systems at once.", "anchors": ["palworld_save_tools/commands/convert.py:main", "palworld_save_tools/commands/convert.py:convert_sav_to_json", "palworld_save_tools/commands/convert.py:convert_json_to_sav"]}
{"id": "C70", "title": "Saves on the way do not change what the last save writes, even if they fail", "statement": "GvasFile.write changes the tree it writes, also when it raises. Take any sequence of edits of a loaded file, each of which replaces, removes or changes a property, a value, an array element or a map entry without reaching into a decoded property, with any saves in between, each of which may fail half way. If the file after the edits alone can be saved, then the sequence is possible, the file can be saved after it, and the bytes are the same. A save, failed or not, keeps the header, the trailer and everything in the tree except the custom_type and the value of decoded properties; if nothing is decoded, it changes nothing. Edits inside decoded properties are different: after a failed save a decoded property that is repaired in place cannot be saved any more (KeyError), and an edit of a decoded base camp module after a save has no effect on the file.", "quantifier": "all file objects, all sequences of saves and edits, all configurations of custom properties", "why_tests_cant": "Ranges over all histories of edits, saves and failed saves, and all points at which a save can fail.", "anchors": ["palworld_save_tools/gvas.py:GvasFile.write", "palworld_save_tools/archive.py:FArchiveWriter.property_inner", "palworld_save_tools/rawdata", "palworld_save_tools/rawdata/base_camp_module.py:encode"]}
{"id": "C71", "title": "The trailer is standard base64 in the document, and is read leniently", "statement": "In the document of a save file the trailer is the base64 text (RFC 4648) of its bytes, and every byte string has exactly one such text, which is read as those bytes. When a document is read, its trailer is taken for the bytes b exactly if it is ASCII text whose digits, up to the first properly padded group or else to the end, have b as their bits in groups of eight, with no group left open; a document whose trailer is anything else is refused. So line breaks, blanks and other characters that are neither digits nor pads may be put anywhere into the text; of two texts put one after the other the second is appended if the first is whole groups of three bytes, and otherwise ignored without a message.", "quantifier": "all trailers, all documents, all texts", "why_tests_cant": "Ranges over all byte strings and all texts an edited document may have.", "anchors": ["palworld_save_tools/gvas.py:GvasFile.dump", "palworld_save_tools/gvas.py:GvasFile.load"]}
{"id": "C72", "title": "A run of the resave test, from its command line to its verdict", "statement": "With any number of arguments but one the resave test fails and changes nothing. With one argument it reports success exactly if that is the name of a SAV container of a save file whose content can be put in JSON, the JSON document says a save file with the same bytes, the container has the type that belongs to its class, the bytes can be compressed to less than 2^32, the two outputs can be opened, and the user agrees to replace those of them that exist, in turn.", "quantifier": "all command lines, file systems, replies and file contents, all compressors with the inverse law", "why_tests_cant": "Ranges over all files, file systems and sequences of replies.", "anchors": ["palworld_save_tools/commands/resave_test.py:main"]}
{"id": "C73", "title": "Which texts are taken for a GUID, and for which", "statement": "UUID.from_str, and writing a document in which a GUID is a text, accept exactly the following texts, each for exactly one GUID: take out every \"urn:\" and then every \"uuid:\", the braces around the text and all dashes; 32 characters must be left that are a hexadecimal number (digits of either case with single underscores between them, blanks around, an optional plus, an optional 0x; decimal digits of other scripts count). So a GUID may be written with dashes anywhere or nowhere, in lower or upper case, in braces or as a URN, and its own text is read back. All other texts are refused with a ValueError.", "quantifier": "all texts and all GUIDs", "why_tests_cant": "Ranges over all texts an edited document may have.", "anchors": ["palworld_save_tools/archive.py:UUID.from_str", "palworld_save_tools/archive.py:FArchiveWriter.guid", "palworld_save_tools/archive.py:uuid_writer"]}
{"id": "C74", "title": "A stack too short for the nesting is noticed", "statement": "When a file or document is nested more deeply than the interpreter's stack allows, GvasFile.read and GvasFile.write raise RecursionError, or do exactly what they do with enough stack; they never return a different document or write different bytes. More room on the stack never makes a call fail that succeeded. (The code keeps this for writing, and for reading unless dynamic items are decoded: there an egg whose object does not fit on the stack is shown as an item of unknown structure, without an exception. An egg shown like that is still saved as the same bytes.)", "quantifier": "all files, all documents, all sets of registered decoders, and all rules for where the stack ends (any predicate of the chain of nested calls)", "why_tests_cant": "Where the stack ends depends on the interpreter, on the caller and on the file; a test has one interpreter and one depth.", "anchors": ["palworld_save_tools/archive.py:FArchiveReader.properties_until_end", "palworld_save_tools/archive.py:FArchiveReader.property", "palworld_save_tools/archive.py:FArchiveWriter.properties", "palworld_save_tools/rawdata/dynamic_item.py:try_read_egg", "palworld_save_tools/gvas.py:GvasFile.read", "palworld_save_tools/gvas.py:GvasFile.write"]}
{"id": "C75", "title": "What is not interpreted is announced", "statement": "When GvasFile.read returns, everything it did not interpret has been printed: every dynamic item of type unknown, camp module, work, work transform and map object model kept as raw bytes, every unusual number of connectors, bytes left over in a camp module, a trailer other than four zero bytes, and every struct type that was guessed. What is printed is never a false alarm: a path reported as guessed has no hint, a type reported as unknown is none of the known ones. The outcome depends on missing type hints only where a guess was printed: more hints that agree with the printed guesses give the same outcome.", "quantifier": "all files, all type hints, all sets of registered decoders; all decoded properties of the document, also inside decoded characters, items and hatching eggs", "why_tests_cant": "A test looks at one file; that nothing is skipped silently in any file, and that a silent read does not depend on the hints, are statements about all of them.", "anchors": ["palworld_save_tools/archive.py:FArchiveReader.get_type_or", "palworld_save_tools/gvas.py:GvasFile.read", "palworld_save_tools/rawdata/dynamic_item.py:decode_bytes", "palworld_save_tools/rawdata/base_camp_module.py:decode_bytes", "palworld_save_tools/rawdata/work.py:decode_bytes", "palworld_save_tools/rawdata/connector.py:decode_bytes", "palworld_save_tools/rawdata/map_concrete_model.py:decode_bytes"]}
{"id": "C76", "title": "A document is not larger than its file allows", "statement": "The number of values in the document GvasFile.read returns, counting every number, text, id, list and dict at any depth, is at most twice the number of bytes of the file; so a small file cannot make the reader use unbounded memory.", "quantifier": "all files that are read, all type hints, all sets of registered decoders", "why_tests_cant": "A bound for all files, including damaged and malicious ones whose element counts lie; the violating files are not found by running on real saves.", "anchors": ["palworld_save_tools/archive.py:FArchiveReader.tarray", "palworld_save_tools/archive.py:FArchiveReader.guid", "palworld_save_tools/archive.py:instance_id_reader", "palworld_save_tools/rawdata/group.py:decode_bytes", "palworld_save_tools/gvas.py:GvasFile.read"]}
{"id": "C77", "title": "Leaving out decoders loses nothing but the decoding", "statement": "If GvasFile.read succeeds with some set of custom properties, it succeeds on the same bytes with any subset of them (--custom-properties), with the same header and trailer and the same properties, except that a property whose decoder is left out appears as it was before decoding.", "quantifier": "all files that are read, all sets of decoders where none is registered inside what another decodes (Palworld's table among them), all subsets of them", "why_tests_cant": "Holds for every file, every choice of decoders and every depth of nesting; decoders also run on the lists of properties embedded in raw data, which samples rarely contain.", "anchors": ["palworld_save_tools/archive.py:FArchiveReader.property", "palworld_save_tools/archive.py:FArchiveReader.properties_until_end", "palworld_save_tools/rawdata/dynamic_item.py:try_read_egg", "palworld_save_tools/commands/convert.py:convert_sav_to_json", "palworld_save_tools/paltypes.py:PALWORLD_CUSTOM_PROPERTIES"]}
{"id": "C78", "title": "Exactly the well-formed files survive", "statement": "A file is unchanged by GvasFile.read and write if and only if it is well-formed (sizes as written by the game, text in the shortest form, one property per name, and so on); the same for the conversion to JSON and back, where NaNs must also be the standard ones. So nothing well-formed is changed and nothing ill-formed is passed on unnoticed. What comes back from a conversion to JSON and back is not changed by converting it again, and is not longer than the file was.", "quantifier": "all byte strings below 4 GiB; without custom properties for both conversions, with custom properties (Palworld's without the dynamic items and foliage instances) for reading and writing", "why_tests_cant": "An equivalence over all byte strings: a test can show that some file survives, not that the ones described are all that do.", "anchors": ["palworld_save_tools/gvas.py:GvasFile.read", "palworld_save_tools/gvas.py:GvasFile.write", "palworld_save_tools/gvas.py:GvasFile.dump", "palworld_save_tools/gvas.py:GvasFile.load", "palworld_save_tools/archive.py:FArchiveReader.properties_until_end", "palworld_save_tools/archive.py:FArchiveWriter.properties"]}
