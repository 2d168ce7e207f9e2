# Formal model of palworld-save-tools: design

Source: `/repo` (Python, read as text, never run). Model and proofs: `/verif/lean/Verif/`.

| directory | content |
|-----------|---------|
| `Model/`  | the code, function by function; every definition cites file and lines |
| `Spec/`   | the formats and the notions used in the statements, written without using the model's readers or writers |
| `Lemmas/` | proofs of auxiliary facts |
| `Props/`  | the property theorems `C??_...`, each with a concrete case that meets its hypotheses |

## 1. Approach

* **Shallow, executable model.** Every modelled Python function is a total Lean function. Python exceptions are values
  (`Except Err _`). Python values are the type `Val` (None, bool, int, float, str, list, tuple, dict, UUID, bytes). Dicts are
  insertion-ordered association lists, strings are lists of code points (surrogates included), floats are 64-bit patterns.
* **Reader.** Functions of type `R a = Bytes -> Except Err (a x Bytes)`: state transformers on the remaining input.
* **Writer.** Functions return the bytes written together with the value after the call (`W`), because the custom encoders
  replace decoded blobs inside the tree that is being written.
* **Recursion.** The property reader and the custom decoders are mutually recursive. The model uses open recursion (a `rec`
  parameter) and one budget-indexed knot (`rPropsLoop`). The top level uses budget = input length + 1. C06 shows that no run ever
  runs out of budget and that any larger budget gives the same result, so the budget cannot be observed.
* **Specification.** `Spec/Tree` gives the GVAS property format as a typed abstract syntax (`Props`, `PropT`, `SVal`, `MVal`) with
  an encoder to bytes (`encProps`) and a meaning function to Python values (`valProps`). `Spec/Blobs` does the same for every raw
  data blob (one record type per blob), `Spec/Header`, `Spec/File`, `Spec/Sav` for the containers. They are written from the format,
  not from the reader or writer. Theorems connect bytes (spec), values (what the user sees) and the model functions.
* **When the code does not have the property**, the exact exception is proved: a counterexample theorem with concrete bytes, plus
  the theorem under the weakest condition found (suffix `_partial` when part of the English claim is lost).

## 2. Trusted base

* The Lean 4.33.0 kernel. No `sorry`, `native_decide`, `bv_decide`, own axioms, `implemented_by` or `unsafe`.
* Axioms (`#print axioms` for each theorem of MANIFEST.json): none for C49_partners and C49_paths_distinct; `propext` only for
  C14_non_integers_rejected, C16_none_is_nan, C30_empty, C49_types; `propext` and `Quot.sound` for C13_too_long_rejected,
  C24_sav_write_total, C25_short_rejected, C26_bad_magic, C26_bad_version, C27_base64, C50_collapse_contents, C53_history; all others `propext`,
  `Classical.choice`, `Quot.sound`.
* Mathlib is used for tactics and for a few arithmetic lemmas (zpow, floor); it adds no axiom.
* The faithfulness of the model to the Python text (each definition cites its lines) and of `Model/Py.lean` to CPython: `struct.pack`
  and `unpack` on a little-endian host, `bytes()` of a list, `str.isascii`, codecs ascii and utf-16-le with surrogatepass, `int(s, 16)` as
  used by `uuid.UUID`, dict order, IEEE 754 doubles, round-half-even conversion to single precision.
* zlib and `float.__repr__` are parameters (`Ext`), with laws (`ExtLaws`) as hypotheses of the theorems that need them: decompress
  inverts compress; the text of a finite float is a JSON number that is read as this float (`ReprLaw`). `Model/FloatRepr` models `repr`
  (shortest digits that read back, CPython's layout) and C56_float_text proves the law for it. `Props/CliSample` builds an instance
  (`plainExt`) with it, so the hypotheses can be met.
* `jsonRT` (Model/Json) is the effect of `json.dump` with `CustomEncoder` followed by `json.load`: UUID to its text, tuple to list, any
  NaN to the canonical one, adjacent surrogates merged, bytes rejected. `Model/JsonText` models the text that is written and the parser,
  character by character (standard library json/encoder.py, decoder.py, scanner.py), and C56 proves that together they have this effect.
  Trusted: that these follow the standard library. Left out: its limits on recursion and on the digits of an int.
* As a check on that trust the models of `json.load`, `json.dump`, `float.__repr__`, float narrowing, widening and multiplication,
  int to float, `int()`, `round()`, `base64.b64decode`, `uuid.UUID` and UTF-16 decoding were run against CPython 3.11 on random inputs
  (60,000 to 400,000 each), without a difference. This is a test and no part of any proof.
* As a check on the model as a whole, 10 of the 13 save files in `/repo/tests/testdata` (all but the three LocalData.sav, too deep for
  Lean's interpreter) were read by it, written back bit for bit, and were identical after JSON, with all decoders and with none, as
  `tests/test_gvas.py` expects of the code. This too is a test. For one of them and for most blobs of `tests/test_rawdata.py` the
  kernel checks it (`Props/RealSave`), and real_wf concludes that this file meets the hypotheses of C01 and C02.

### What is modelled

* `archive.py`: all of it except the two context-manager methods, `repr`, the `debug` flag and the wording of the printed messages. `UUID` as pure
  functions (`Model/Uuid`) and as an object with kept values (`Model/UuidObj`). The recordclass variant (lines 113-188) has the same
  bodies; its `hash` comes from the recordclass package and is not modelled.
* `gvas.py`, `json_tools.py`, `palsav.py`, `paltypes.py` (both tables): all of it.
* `rawdata/*.py`: every decoder and encoder, including `debug.py` and `common.py`.
* `commands/convert.py` with its command line (`Model/Argv`: argparse of CPython 3.11, specialised to this parser, compared with the
  library on 50000 random lines), `commands/resave_test.py`, over a file system, a terminal that answers prompts, and
  `Ext`. File writes are steps of a trace, so that truncation by `open(.., "w")` before `json.dump` fails is visible.
  `Model/Steps` has the same commands as programs of single steps (output arrives byte by byte), for interrupted and concurrent runs.
* `scripts/extract_map_object_concrete_classes.py`: all of it, from the loaded documents to the printed table; `str.lower` is a parameter.

### What is not modelled

The wording of log output, and a print that fails on text the terminal cannot encode (which messages a read prints is in `Model/Warn`), memory exhaustion, the recursion limit inside the leaf calls of decoders and inside json (`Model/Shallow` has it for property lists), the texts argparse prints, `DEBUG` output, aliasing (two references to one
dict in a tree), `convenience_tools/` (a batch file that starts the tool).

## 3. Properties: what is modelled and how it is proved

| id | model | proof |
|----|-------|-------|
| C01 | read, jsonRT, write, commands | read(enc t) = val t by induction on syntax (TreeRead); write(jsonRT(val t)) = enc t (TreeWrite, TreeJson); lifted to the two commands (C01_cli) and to the real tables (C01_palworld) |
| C02 | read, write | the same without JSON |
| C03 | property reader/writer | induction on typed syntax; the rest of the input is arbitrary |
| C04 | writer, jsonRT | `Sim` relation between a tree and its JSON image, preserved by every writer (Sim, TreeJson). `Jok` says that the tree survives JSON; under "value" of a blob list no tuple may stand (a custom encoder would see a list) |
| C05 | writer with mutation | the value after the write is written to the same bytes (Idem, WfSub, PreMono) |
| C06 | reader knot | budgets above the input length give equal results (Bound, BoundBlob, BoundProps), no `fuel` error |
| C07 | property reader | `Cut` relation: a reader on a cut input fails unless the cut is in a name that starts with None; C07_list gives the exact exception and C07_counterexample shows it happens |
| C08 | read with cfg, write | corollary of C01 for every choice of decoders |
| C09 | reader/writer dispatch | case analysis; for nested positions induction on the position (`Inside`) |
| C10 | spec skipper (Spec/Skip) | every written image parses as tags with exact sizes, nested lists included (C10_inside) |
| C11, C51 | reader/writer without custom decoders | inversion: each accepted input determines a syntax tree with the same value whose encoding is not longer (Invert, InvertTree) |
| C54 | reader/writer with custom decoders | `Redo` (Lemmas/Redo*): if decoding `x` gave `y` and `y` is encoded to `z`, then some canonical `x1` also decodes to `y` and `z` is written as `x1`; composed over blobs, lists and updates per decoder, then over the tree (RedoTree) with the inversion of C11 |
| C55 | reader, dump, JSON, load, writer | `Ret r JN` (Lemmas/JsonRead, JsonTree): every value a reader or decoder returns has distinct string keys, transportable strings and no raw bytes, so that C04 applies to whatever was read and not only to well-formed files |
| C12, C13 | fstring | UTF-16/ASCII codec inverse, injectivity. The writer's return value is the length of the bytes; its only use is the declared size, see C10 |
| C14 | pack/unpack | little-endian arithmetic |
| C15-C17 | float conversions at bit level | arithmetic on sign, exponent, fraction; C15_float_value compares the writer with rounding to nearest even over the rationals (Spec/Single); C17_text by induction on the position in the document |
| C18-C20, C53 | UUID | byte permutation, hex printing/parsing; C53 by an invariant over call histories |
| C21, C22 | packed_vector | two's complement arithmetic, exactness of floats |
| C23 | rotator | kernel evaluation over the whole 16-bit domain, lifted to triples |
| C24, C25 | palsav | direct; iff with a declarative layout |
| C26, C27 | gvas header, base64 | round trip |
| C28-C38 | each rawdata module | typed record per blob, decode(enc r) = val r and encode(val r) = enc r, also through JSON. C31 has the side condition that the decoder's heuristics pick the variant (`Selects`, `NotEggBytes`), C37 covers the whole class table |
| C39 | each decoder | decode(enc r ++ x) raises for x non-empty; C39_camp_module_drops_leftovers is the exception |
| C40, C52 | decoders/encoders | `Chain`/`St` calculus (Lemmas/Stable*): a decoder step that accepts input has an encoder step that accepts its value, not longer, and decodes to it again; exceptions proved real |
| C41 | commands over files | case analysis on the command |
| C42 | path logic | string lemmas on `replace` |
| C43 | main | counterexamples plus partial theorems (two independent ifs) |
| C44 | commands | case analysis; counterexample for sav to json (`open` truncates before `json.dump` fails) |
| C45 | commands, palsav | substring spec |
| C46 | confirm_prompt | induction on replies |
| C47 | resave_test | case analysis |
| C48 | hints | the writer has no hints; corollary of C01 |
| C49 | registry | evaluation of the whole table; C49_named_partial for every property read; counterexample for embedded objects |
| C50 | properties loop | induction on the list |
| C56 | JSON text | `Spec/JsonText` is the grammar of RFC 8259 with values (floats: nearest double). The parser is sound and complete for it (JsonScan, JsonNum, JsonParse, Utf8), the writer's output is in it (JsonWrite), by induction on texts and on values |
| C57 | JSON text, palsav, commands | no object is a beginning of another one (determinism of the parser); what a failed dump leaves is the beginning of a longer text (JsonCut); the length check of palsav |
| C58 | load, writer, commands | `Spec/Says` relates Python values to save files, without the writer; Lemmas/Says proves both directions by induction on the budget of the writer (what is written is said, what is said is written), Lemmas/SaysVal that what the reader shows says the file |
| C59 | raw-data encoders | `Spec/SaysBlobs` relates the dict of each blob to the record of `Spec/Blobs` that it says, by key paths, without the encoders; Lemmas/Codes has a small calculus of encoders that write what is said, Lemmas/SaysBlob, SaysBlob2, SaysFoliage instantiate it for every encoder; Lemmas/SaysOpen carries it through the custom-property codecs into C58 |
| C60 | read, JSON, write, commands | `Spec/Edit` has edits of a document (keys and positions) and of a tree, side by side; induction on the way to the place shows that the document of the edited tree is the edited document, and that the bytes change locally (Lemmas/Edit); then C01-C04 for the edited tree |
| C61 | read | `Spec/Layout` says what the primitive layouts stand for, `Spec/Shown` is an inductive reading of property lists and files over all byte strings; `Lemmas/Layout` proves each primitive reader equivalent to its layout, `Lemmas/Shown` the list reader: soundness by induction on the budget, completeness by induction on the derivation, using that the budget always suffices (C06) |
| C62 | read, raw-data decoders | `Spec/ShownBlobs` has the layouts of all blobs as tables of fields and the places where they are shown; Lemmas/ShownBlobs, ShownBlobs2, ShownBlobs3, ShownFoliage prove each decoder equivalent to its layout, ShownBlobs4 each custom property. Lists embedded in blobs make this an equation for what is shown (`ShowsCustom`); the decoders solve it, and by induction on the length of the list every solution shows the same (Lemmas/ShownCongr: a blob is shorter than the list it is in). One input of the equation is taken from the reader: of which bytes it says "Warning: EOF not reached" (only used by dynamic items, where it decides whether an egg is refused or tried as something else) |
| C63 | the command SAV to JSON | `Spec/InJson` relates a shown value to the JSON value that stands for it; Lemmas/InJson proves the model's encoder equivalent to it on what the reader shows; then C62, C25, C56 and C46 in one statement with "exactly if" for success |
| C64 | the command JSON to SAV | C58 in both directions, C24/C25, C45, C56 and C46 in one statement with "exactly if" for success |
| C65 | commands as programs of single steps (`Model/Steps`) | complete runs are the commands of `Model/Cli` (C65_complete); the states of a run are those before the output is opened and those that hold a beginning of the output (Lemmas/Interrupt, by taking the program apart at each bind); then C57 and induction on the attempts |
| C66 | several such programs over one file system | invariant: every process is in a state of its run alone, on a world that agrees with the real one on what it reads and writes; termination by the lexicographic order of well-founded programs |
| C67 | `scripts/extract_map_object_concrete_classes.py` (`Model/Extract`) | `Spec/Extract` says what the entries are as relations over the exported files (which file, which row, which class extends which); Lemmas/Extract proves each function equivalent to its relation, going up by induction on the limit in one direction and on the chain in the other |
| C68 | argument parsing of `convert.py` (`Model/Argv`) | `Spec/Argv`: items and their spellings (abbreviations, `=`, clusters of short options). Forward: each spelling is a group of tokens that does what its items do (Lemmas/Argv), so a line is a fold over its items. Backward, for all lines: what the state has in the end stands in some word (Lemmas/ArgvSound) |
| C69 | the whole of `convert.py` (`convertArgv`) | `Spec/Whole`: from the items of a line to the direction, the output and the selected custom properties. C68 gives the options of the line, the specification of the names is shown to be functional (`Stripped`, `KeyList`, `WithoutJson`), then C63 or C64 applies. |
| C70 | `Model/Left`: what every call of the writer leaves behind in the tree, also if it raises (C05 is about calls that return) | `Spec/History`: edits, the places that meet no decoded property, histories. A relation between a tree that was never saved and the same tree after saves: equal outside decoded properties, and a decoded property and what became of it are written alike (`Lemmas/LeftRel`). It is kept by saves, because the writer is idempotent, and by edits (`Lemmas/LeftEdit`), and related trees are written alike. The frame (`Kept`) is a separate induction (`Lemmas/LeftKept`). |
| C71 | `b64encode`, `b64decode` (`Model/Base64`), `GvasFile.dump`, `load` | `Spec/Base64`: digits, bits, padding. The encoder group by group; the decoder by induction over the text with the bits kept for the next byte. The document relations of C58, C61, C63, C64 (`Spec/Says`, `Spec/InJson`) now use this specification, not the model's functions. |
| C72 | `resave_test.py` with its command line (`resaveArgv`) | C47 with C63 and C64 for its two conversions; `ConsentsTo` says how the replies are shared out. |
| C73 | `uuid.UUID(text)`, `int(text, 16)` (`Model/Uuid`), `UUID.from_str`, `guid` | `Spec/UuidText`: a grammar of the texts. Each step of the parser is shown to be the only solution of its specification (taking words out, taking off what is around, digits with underscores, prefix, sign). `Spec/Says` uses it for GUIDs. |
| C74 | the recursion of reader and writer with a stack that may end anywhere (`Model/Shallow`) | the plain recursion is taken from `Model/Props` with other recursive calls. "The outcome is the same, or RecursionError" is kept by everything that does not catch exceptions: readers, decoders, writers (`Lemmas/Shallow`), also between two stacks of which one has more room. Success needs room where a property is read or a list entered (C74_room). Counterexample for dynamic items; what an egg becomes there follows from the lemmas for C31. |
| C75 | the messages printed by a read (`Model/Warn`): each reader with the list of its messages; `Spec/Warn` says what must be announced and what may be | three inductions over the reader: it agrees with the reader of `Model/Props`, also for other hints, as long as the messages are fine (`Lemmas/Warn`); every result has its gaps in the log (`Lemmas/WarnLog`, `WarnFound`); every message is justified (`Lemmas/WarnJust`). |
| C76 | `Spec/Size` counts the values of a document | for each reader, values and bytes left are bounded by twice the bytes there were, unless nothing is left (`Lemmas/Size`); a list of properties ends with a name, so something is left wherever it matters. With decoders: the bytes under `"values"` are weighed as what a decoder may make of them (`Lemmas/Weight`), each decoder but two makes at most eight values per byte and sixty more (`Lemmas/WeightBlob`), so decoding makes nothing heavier (`Lemmas/WeightPost`). For groups and map objects the claim is false: counterexamples. |
| C77 | `Spec/Fewer` relates the documents of two reads: same everywhere but for decoded properties | the readers with both tables side by side (`Lemmas/Fewer*`): below a decoded property they are the same function, elsewhere induction on the bytes; decoders that read embedded lists may only differ in how an egg ends. Counterexample where it does. |
| C78 | `Spec/Tree` says what a well-formed file is; the theorems are equivalences with surviving the model's conversions | one direction is C01/C02; for the other, the tree recovered from any successful read (`Lemmas/Invert*`) must encode to the bytes written; NaNs are made standard in the tree as JSON does (`Lemmas/OneNaN`); arrays of GUIDs, which cannot be written, stay unwritable through JSON (`Lemmas/BadKept`) |

## 4. Findings (behaviour that differs from what a user may expect, each with a theorem)

* **Non-canonical bytes are not kept** although the README promises bit-for-bit identity: bool bytes above 1, the u32 after a map's id,
  strings stored longer than needed, unchecked terminators and sizes, duplicate names (C50), NaN payloads (C16), rotators with an
  explicit zero (C23_noncanonical_changes). Hence "well-formed" in C01-C03, and C11 for the rest.
* **Truncation**: a file cut inside a top-level property name that starts with "None" is accepted as complete (C07_counterexample).
* **A small file can fill the memory**: GUIDs are read without a length check, so at the end of a group's data each of up to 2^32 claimed
  members is read as an id of no bytes: 442 bytes give 12 thousand million values (C76_counterexample). Without decoders a document has
  at most two values per byte (C76_plain_partial), with the other decoders at most eight (C76_decoders_partial); a breeding farm
  has the same defect as a group (C76_breeding_counterexample).
* **Fewer decoders can make a file unreadable**: `try_read_egg` takes any exception for "not an egg" except the one about bytes left
  over. A dynamic item in which a decoder fails is shown as unknown; with that decoder left out, the same bytes parse as an egg with
  bytes left over, and the whole read fails (C77_counterexample).
* **Arrays of GUIDs** are read but cannot be written (C40_guids_counterexample).
* **Arrays of ints, floats, strings and bools**, and empty arrays of any other type, are written but cannot be read
  (C58_unreadable_array). The grammar of files has them (`Others` in Spec/Tree), well-formed trees have not.
* **`--convert-nan-to-null`** never nulls a NaN (C17), and turns an infinity into NaN (C11_null_counterexample).
* **Fractions** of packed vectors are dropped (C22); a NaN coordinate of a foliage instance cannot be written (C40_foliage_nan).
* **Work data**: unknown work types and unknown transform types decode but cannot be encoded (C40_work_unknown, C40_work_transform).
* **Empty connector blobs** decode but cannot be encoded on their own (C40_connector_empty).
* **Dynamic items**: a weapon can be read back as an egg after re-saving (C54_dynamicItem_counterexample).
* **Short GUIDs**: a blob that ends before its last GUID is read and re-saved but cannot be converted to JSON (C55_short_guid_counterexample).
* **Foliage instances**: re-saving rounds a location stored as doubles (C54_foliage_counterexample).
* **Base camp modules** drop leftover bytes (C39_camp_module_drops_leftovers).
* **A short stack**: `try_read_egg` catches RecursionError, so an egg nested too deeply is shown as an item of unknown structure
  without an exception (C74_counterexample); it is saved as the same bytes (C74_egg).
* **Embedded objects** are read with the custom table and written without it (C49_embedded_counterexample).
* **`--to-json`/`--from-json`**: a file whose name matches the other direction is converted twice (C43 counterexamples).
* **SAV to JSON** destroys an existing output file when serialisation fails (C44_sav_to_json_counterexample); what is left is not
  accepted as JSON (C57_failed_dump).
* **The table of concrete classes** has "unknown" for an object whose class is set two blueprints up (C67_grandparents_not_asked), and
  blueprints that extend each other in a circle end the script without any table (C67_circular).
* **Output files are replaced in place** (C65). A conversion back to a save file that dies between opening and closing the output leaves neither
  the old save file nor the new one (C65_overwrite_not_atomic: every beginning of the new contents, also the empty one, is a possible
  remainder). The remainder is refused by the tool (C65_sav_refused), and the command can be repeated (C65_again_sav).

## 5. Tests of the theorems against wrong programs

`seeded/LOG.jsonl` has one line per edit of the model in a scratch copy: the definition, the edit, the claim it breaks and the theorems
that failed. `failed` lists the lemma or theorem at which the build stops and the property theorems that depend on it.
