{
 "claims": [
  {
   "property": "C01",
   "status": "proved",
   "theorems": [
    "Pal.C01_cli",
    "Pal.C01_identity",
    "Pal.C01_palworld"
   ],
   "note": ""
  },
  {
   "property": "C02",
   "status": "proved",
   "theorems": [
    "Pal.C02_identity"
   ],
   "note": ""
  },
  {
   "property": "C03",
   "status": "proved",
   "theorems": [
    "Pal.C03_plain",
    "Pal.C03_custom",
    "Pal.C03_file"
   ],
   "note": ""
  },
  {
   "property": "C04",
   "status": "proved",
   "theorems": [
    "Pal.C04_document",
    "Pal.C04_file",
    "Pal.C04_tree"
   ],
   "note": ""
  },
  {
   "property": "C05",
   "status": "proved",
   "theorems": [
    "Pal.C05_again",
    "Pal.C05_repeated"
   ],
   "note": ""
  },
  {
   "property": "C06",
   "status": "proved",
   "theorems": [
    "Pal.C06_list",
    "Pal.C06_file",
    "Pal.C06_read",
    "Pal.C06_decoder"
   ],
   "note": ""
  },
  {
   "property": "C07",
   "status": "proved",
   "theorems": [
    "Pal.C07_list",
    "Pal.C07_rejected",
    "Pal.C07_file",
    "Pal.C07_counterexample"
   ],
   "note": ""
  },
  {
   "property": "C08",
   "status": "proved",
   "theorems": [
    "Pal.C08_json",
    "Pal.C08_memory",
    "Pal.C08_palworld"
   ],
   "note": ""
  },
  {
   "property": "C09",
   "status": "proved",
   "theorems": [
    "Pal.C09_read_list",
    "Pal.C09_read_file",
    "Pal.C09_read_array",
    "Pal.C09_read_map",
    "Pal.C09_read_types",
    "Pal.C09_write_type",
    "Pal.C09_write_custom",
    "Pal.C09_write_array",
    "Pal.C09_write_map",
    "Pal.C09_write_inside",
    "Pal.C09_write_file"
   ],
   "note": ""
  },
  {
   "property": "C10",
   "status": "proved",
   "theorems": [
    "Pal.C10_written",
    "Pal.C10_file",
    "Pal.C10_tree",
    "Pal.C10_structs",
    "Pal.C10_inside"
   ],
   "note": ""
  },
  {
   "property": "C11",
   "status": "proved",
   "theorems": [
    "Pal.C11_list",
    "Pal.C11_file",
    "Pal.C11_null_counterexample"
   ],
   "note": ""
  },
  {
   "property": "C12",
   "status": "proved",
   "theorems": [
    "Pal.C12_string_roundtrip",
    "Pal.C12_reader_strings_normal"
   ],
   "note": ""
  },
  {
   "property": "C13",
   "status": "proved",
   "theorems": [
    "Pal.C13_string_canonical",
    "Pal.C13_too_long_rejected",
    "Pal.C13_string_injective"
   ],
   "note": ""
  },
  {
   "property": "C14",
   "status": "proved",
   "theorems": [
    "Pal.C14_integers",
    "Pal.C14_non_integers_rejected"
   ],
   "note": ""
  },
  {
   "property": "C15",
   "status": "proved",
   "theorems": [
    "Pal.C15_float_roundtrip",
    "Pal.C15_float_roundtrip_json",
    "Pal.C15_double_roundtrip",
    "Pal.C15_signalling_nan_changes",
    "Pal.C15_float_value"
   ],
   "note": ""
  },
  {
   "property": "C16",
   "status": "proved",
   "theorems": [
    "Pal.C16_none_is_nan",
    "Pal.C16_nan_json_float",
    "Pal.C16_nan_json_double"
   ],
   "note": ""
  },
  {
   "property": "C17",
   "status": "proved",
   "theorems": [
    "Pal.C17_nan_to_null_float",
    "Pal.C17_nan_to_null_double",
    "Pal.C17_inf_becomes_nan",
    "Pal.C17_text"
   ],
   "note": ""
  },
  {
   "property": "C18",
   "status": "proved",
   "theorems": [
    "Pal.C18_uuid_text",
    "Pal.C18_uuid_text_shape",
    "Pal.C18_uuid_roundtrip",
    "Pal.C18_text_stable"
   ],
   "note": ""
  },
  {
   "property": "C19",
   "status": "proved",
   "theorems": [
    "Pal.C19_uuid_eq",
    "Pal.C19_uuid_eq_text"
   ],
   "note": ""
  },
  {
   "property": "C20",
   "status": "proved",
   "theorems": [
    "Pal.C20_uuid_stdlib"
   ],
   "note": ""
  },
  {
   "property": "C21",
   "status": "proved",
   "theorems": [
    "Pal.C21_packed_roundtrip",
    "Pal.C21_packed_rewrite"
   ],
   "note": ""
  },
  {
   "property": "C22",
   "status": "proved",
   "theorems": [
    "Pal.C22_packed_truncates",
    "Pal.C22_fraction_lost"
   ],
   "note": ""
  },
  {
   "property": "C23",
   "status": "proved",
   "theorems": [
    "Pal.C23_rotator_roundtrip",
    "Pal.C23_noncanonical_changes"
   ],
   "note": ""
  },
  {
   "property": "C24",
   "status": "proved",
   "theorems": [
    "Pal.C24_sav_roundtrip",
    "Pal.C24_sav_write_total"
   ],
   "note": ""
  },
  {
   "property": "C25",
   "status": "proved",
   "theorems": [
    "Pal.C25_sav_validation",
    "Pal.C25_sav_rejects",
    "Pal.C25_sav_unambiguous",
    "Pal.C25_short_rejected"
   ],
   "note": ""
  },
  {
   "property": "C26",
   "status": "proved",
   "theorems": [
    "Pal.C26_read",
    "Pal.C26_write",
    "Pal.C26_json",
    "Pal.C26_dump_load",
    "Pal.C26_bad_magic",
    "Pal.C26_bad_version",
    "Pal.C26_bad_format"
   ],
   "note": ""
  },
  {
   "property": "C27",
   "status": "proved",
   "theorems": [
    "Pal.C27_base64",
    "Pal.C27_dump_load",
    "Pal.C27_file",
    "Pal.C27_write",
    "Pal.C27_suffix",
    "Pal.C27_append"
   ],
   "note": ""
  },
  {
   "property": "C28",
   "status": "proved",
   "theorems": [
    "Pal.C28_group"
   ],
   "note": ""
  },
  {
   "property": "C29",
   "status": "proved",
   "theorems": [
    "Pal.C29_character"
   ],
   "note": ""
  },
  {
   "property": "C30",
   "status": "proved",
   "theorems": [
    "Pal.C30_character_container",
    "Pal.C30_item_container",
    "Pal.C30_item_container_slots",
    "Pal.C30_empty"
   ],
   "note": ""
  },
  {
   "property": "C31",
   "status": "proved",
   "theorems": [
    "Pal.C31_dynamic_item",
    "Pal.C31_empty",
    "Pal.C31_not_egg"
   ],
   "note": ""
  },
  {
   "property": "C32",
   "status": "proved",
   "theorems": [
    "Pal.C32_foliage_model",
    "Pal.C32_foliage_instance"
   ],
   "note": ""
  },
  {
   "property": "C33",
   "status": "proved",
   "theorems": [
    "Pal.C33_base_camp",
    "Pal.C33_worker_director",
    "Pal.C33_work_collection"
   ],
   "note": ""
  },
  {
   "property": "C34",
   "status": "proved",
   "theorems": [
    "Pal.C34_camp_module",
    "Pal.C34_unknown_type"
   ],
   "note": ""
  },
  {
   "property": "C35",
   "status": "proved",
   "theorems": [
    "Pal.C35_work",
    "Pal.C35_work_assign"
   ],
   "note": ""
  },
  {
   "property": "C36",
   "status": "proved",
   "theorems": [
    "Pal.C36_map_model",
    "Pal.C36_connector",
    "Pal.C36_build_process"
   ],
   "note": ""
  },
  {
   "property": "C37",
   "status": "proved",
   "theorems": [
    "Pal.C37_concrete",
    "Pal.C37_classes",
    "Pal.C37_unknown",
    "Pal.C37_undecoded"
   ],
   "note": ""
  },
  {
   "property": "C38",
   "status": "proved",
   "theorems": [
    "Pal.C38_module",
    "Pal.C38_empty"
   ],
   "note": ""
  },
  {
   "property": "C39",
   "status": "proved",
   "theorems": [
    "Pal.C39_group",
    "Pal.C39_character_container",
    "Pal.C39_item_container",
    "Pal.C39_item_container_slots",
    "Pal.C39_foliage_model",
    "Pal.C39_foliage_instance",
    "Pal.C39_base_camp",
    "Pal.C39_worker_director",
    "Pal.C39_work_collection",
    "Pal.C39_camp_module_drops_leftovers",
    "Pal.C39_work",
    "Pal.C39_work_assign",
    "Pal.C39_map_model",
    "Pal.C39_build_process",
    "Pal.C39_module",
    "Pal.C39_module_unknown_type",
    "Pal.C39_character",
    "Pal.C39_egg",
    "Pal.C39_concrete"
   ],
   "note": ""
  },
  {
   "property": "C40",
   "status": "proved",
   "theorems": [
    "Pal.C40_blobs",
    "Pal.C40_camp",
    "Pal.C40_work",
    "Pal.C40_work_transform",
    "Pal.C40_work_unknown",
    "Pal.C40_connector_empty",
    "Pal.C40_character",
    "Pal.C40_concrete",
    "Pal.C40_dynamic",
    "Pal.C40_foliage",
    "Pal.C40_foliage_nan",
    "Pal.C40_list",
    "Pal.C40_file",
    "Pal.C40_guids_counterexample"
   ],
   "note": "Files: C40_file (writable iff no non-empty array of GUIDs). Blobs: C40_blobs, C40_camp, C40_work (exact), C40_character (exact), C40_concrete, C40_dynamic, C40_foliage; the exceptions are shown real by C40_work_transform, C40_work_unknown, C40_connector_empty, C40_foliage_nan. The embedded objects are read without custom decoders inside them."
  },
  {
   "property": "C41",
   "status": "proved",
   "theorems": [
    "Pal.C41_convert",
    "Pal.C41_only_output"
   ],
   "note": ""
  },
  {
   "property": "C42",
   "status": "proved",
   "theorems": [
    "Pal.C42_to_json",
    "Pal.C42_from_json",
    "Pal.C42_other_names"
   ],
   "note": ""
  },
  {
   "property": "C43",
   "status": "partial",
   "theorems": [
    "Pal.C43_to_json_partial",
    "Pal.C43_from_json_partial",
    "Pal.C43_both",
    "Pal.C43_from_json_counterexample",
    "Pal.C43_to_json_counterexample"
   ],
   "note": "The full claim is false of the code: the two tests on the extension are independent ifs, so a file can be converted twice; the counterexample and what does hold are proved."
  },
  {
   "property": "C44",
   "status": "partial",
   "theorems": [
    "Pal.C44_json_to_sav",
    "Pal.C44_sav_to_json_partial",
    "Pal.C44_sav_to_json_counterexample"
   ],
   "note": "The full claim is false of the code: opening the output truncates it before the JSON is produced, so a failure there destroys an existing file; the counterexample and what does hold are proved."
  },
  {
   "property": "C45",
   "status": "proved",
   "theorems": [
    "Pal.C45_save_type"
   ],
   "note": ""
  },
  {
   "property": "C46",
   "status": "proved",
   "theorems": [
    "Pal.C46_prompt",
    "Pal.C46_no_answer",
    "Pal.C46_iff"
   ],
   "note": ""
  },
  {
   "property": "C47",
   "status": "proved",
   "theorems": [
    "Pal.C47_verdict",
    "Pal.C47_success"
   ],
   "note": ""
  },
  {
   "property": "C48",
   "status": "proved",
   "theorems": [
    "Pal.C48_writer",
    "Pal.C48_hints"
   ],
   "note": ""
  },
  {
   "property": "C49",
   "status": "partial",
   "theorems": [
    "Pal.C49_embedded_counterexample",
    "Pal.C49_named_partial",
    "Pal.C49_partners",
    "Pal.C49_paths_distinct",
    "Pal.C49_types",
    "Pal.C49_selection",
    "Pal.C49_default_keys",
    "Pal.C49_default",
    "Pal.C49_used",
    "Pal.C49_maps",
    "Pal.C49_map_values"
   ],
   "note": "Table, types, default and selection are proved in full. Last clause: every custom_type that the reader puts on a property is the property's own path, has an entry in the table and the type its encoder demands (C49_named_partial); objects embedded in a blob are read with the table but written without it, where the claim fails (C49_embedded_counterexample)."
  },
  {
   "property": "C50",
   "status": "proved",
   "theorems": [
    "Pal.C50_order",
    "Pal.C50_duplicates",
    "Pal.C50_collapse_names",
    "Pal.C50_collapse_contents"
   ],
   "note": ""
  },
  {
   "property": "C51",
   "status": "proved",
   "theorems": [
    "Pal.C51_length"
   ],
   "note": ""
  },
  {
   "property": "C52",
   "status": "proved",
   "theorems": [
    "Pal.C52_blobs",
    "Pal.C52_camp",
    "Pal.C52_work",
    "Pal.C52_character",
    "Pal.C52_concrete"
   ],
   "note": "Embedded property lists are read without custom decoders inside them and with allow_nan."
  },
  {
   "property": "C53",
   "status": "proved",
   "theorems": [
    "Pal.C53_history"
   ],
   "note": ""
  },
  {
   "property": "C54",
   "status": "proved",
   "theorems": [
    "Pal.C54_list",
    "Pal.C54_file",
    "Pal.C54_palworld",
    "Pal.C54_dynamicItem_counterexample",
    "Pal.C54_foliage_counterexample"
   ],
   "note": "C54_palworld for the tool's table without two entries; C54_file and C54_list for any table as in CfgOk. C54_dynamicItem_counterexample and C54_foliage_counterexample show that the two exclusions are needed."
  },
  {
   "property": "C55",
   "status": "proved",
   "theorems": [
    "Pal.C55_json_is_resave",
    "Pal.C55_dump_succeeds",
    "Pal.C55_fixed_point",
    "Pal.C55_nan_counterexample",
    "Pal.C55_short_guid_counterexample"
   ],
   "note": "C55_nan_counterexample and C55_short_guid_counterexample show that the two conditions are needed."
  },
  {
   "property": "C56",
   "status": "proved",
   "theorems": [
    "Pal.C56_load",
    "Pal.C56_load_rejects",
    "Pal.C56_unambiguous",
    "Pal.C56_dump",
    "Pal.C56_dump_load",
    "Pal.C56_file",
    "Pal.C56_dump_raises",
    "Pal.C56_float_text"
   ],
   "note": "For every text `repr` may give a float that satisfies ReprLaw; C56_float_text: the model of CPython's repr satisfies it."
  },
  {
   "property": "C57",
   "status": "proved",
   "theorems": [
    "Pal.C57_json_cut",
    "Pal.C57_json_cut_convert",
    "Pal.C57_failed_dump",
    "Pal.C57_sav_truncated",
    "Pal.C57_sav_cut"
   ],
   "note": "JSON without assumption on zlib; C57_sav_cut assumes for double compression that zlib rejects a stream that is cut."
  },
  {
   "property": "C58",
   "status": "proved",
   "theorems": [
    "Pal.C58_written",
    "Pal.C58_writable",
    "Pal.C58_unambiguous",
    "Pal.C58_shown",
    "Pal.C58_read_back",
    "Pal.C58_unreadable_array",
    "Pal.C58_command"
   ],
   "note": ""
  },
  {
   "property": "C59",
   "status": "proved",
   "theorems": [
    "Pal.C59_blobs",
    "Pal.C59_embedded",
    "Pal.C59_read_back"
   ],
   "note": ""
  },
  {
   "property": "C60",
   "status": "proved",
   "theorems": [
    "Pal.C60_edit",
    "Pal.C60_json",
    "Pal.C60_bytes",
    "Pal.C60_size",
    "Pal.C60_command"
   ],
   "note": ""
  },
  {
   "property": "C61",
   "status": "proved",
   "theorems": [
    "Pal.C61_shown",
    "Pal.C61_custom",
    "Pal.C61_document",
    "Pal.C61_unambiguous"
   ],
   "note": "C61_shown: exact characterisation of reading for all byte strings, no custom properties; C61_custom/C61_document: with custom decoders given by the relation D; C61_unambiguous: a byte string says at most one file."
  },
  {
   "property": "C62",
   "status": "proved",
   "theorems": [
    "Pal.C62_blobs",
    "Pal.C62_file",
    "Pal.C62_exists",
    "Pal.C62_unambiguous"
   ],
   "note": "C62_blobs: each decoder succeeds exactly on its layout; C62_file/C62_unambiguous/C62_exists for whole files. Which lists end with \"Warning: EOF not reached\" (dynamic items) is taken from the reader."
  },
  {
   "property": "C63",
   "status": "proved",
   "theorems": [
    "Pal.C63_succeeds",
    "Pal.C63_output"
   ],
   "note": "C63_succeeds: exact condition of success; C63_output: what is then written."
  },
  {
   "property": "C64",
   "status": "proved",
   "theorems": [
    "Pal.C64_succeeds",
    "Pal.C64_output"
   ],
   "note": "C64_succeeds: exact condition of success; C64_output: what is then written. No restriction on the document."
  },
  {
   "property": "C65",
   "status": "proved",
   "theorems": [
    "Pal.C65_complete",
    "Pal.C65_to_json",
    "Pal.C65_to_sav",
    "Pal.C65_json_refused",
    "Pal.C65_sav_refused",
    "Pal.C65_again_json",
    "Pal.C65_again_sav",
    "Pal.C65_resave",
    "Pal.C65_main",
    "Pal.C65_overwrite_not_atomic"
   ],
   "note": "C65_sav_refused assumes for double compression that zlib rejects a stream that is cut; C65_again_* need that input and output are different paths."
  },
  {
   "property": "C66",
   "status": "proved",
   "theorems": [
    "Pal.C66_apart",
    "Pal.C66_schedule_irrelevant",
    "Pal.C66_no_deadlock",
    "Pal.C66_ends",
    "Pal.C66_completes"
   ],
   "note": "For jobs none of which writes what another reads or writes; reading a file is one step."
  },
  {
   "property": "C67",
   "status": "proved",
   "theorems": [
    "Pal.C67_table",
    "Pal.C67_one_entry",
    "Pal.C67_circular",
    "Pal.C67_limit",
    "Pal.C67_grandparents_not_asked"
   ],
   "note": "For exports as the exporting tool writes them (ExportOk). str.lower is any function on texts. Documents are given as loaded; warnings are not modelled."
  },
  {
   "property": "C68",
   "status": "proved",
   "theorems": [
    "Pal.C68_meaning",
    "Pal.C68_count",
    "Pal.C68_order",
    "Pal.C68_dashdash",
    "Pal.C68_help",
    "Pal.C68_asked",
    "Pal.C68_unknown",
    "Pal.C68_total",
    "Pal.C68_overwrite",
    "Pal.C68_round_trip"
   ],
   "note": "argparse of CPython 3.11 for the parser of convert.py is part of the model (later versions differ in details outside the listed spellings). Exit codes, not the printed texts."
  },
  {
   "property": "C69",
   "status": "proved",
   "theorems": [
    "Pal.C69_missing",
    "Pal.C69_both_flags",
    "Pal.C69_neither",
    "Pal.C69_to_json",
    "Pal.C69_to_json_output",
    "Pal.C69_from_json",
    "Pal.C69_from_json_output",
    "Pal.C69_usual_name"
   ],
   "note": "C68, C63 and C64 put together. Lines for which both directions apply (a name that says one direction and a flag that says the other) are those of the counterexamples of C43."
  },
  {
   "property": "C70",
   "status": "proved",
   "theorems": [
    "Pal.C70_returns",
    "Pal.C70_frame",
    "Pal.C70_nothing_decoded",
    "Pal.C70_history",
    "Pal.C70_retry_counterexample",
    "Pal.C70_stale_counterexample"
   ],
   "note": "The tree after a call of the writer that raises is modelled in Model/Left.lean. The counterexamples show that the condition on the edits is needed; the property states them."
  },
  {
   "property": "C71",
   "status": "proved",
   "theorems": [
    "Pal.C71_shown",
    "Pal.C71_one_text",
    "Pal.C71_read",
    "Pal.C71_refused",
    "Pal.C71_back",
    "Pal.C71_blanks",
    "Pal.C71_text_only",
    "Pal.C71_joined",
    "Pal.C71_rest_ignored"
   ],
   "note": "Spec/Base64.lean describes texts as rows of bits; it is also what Spec/Says and Spec/InJson use for the trailer. The reading specification was compared with base64.b64decode of CPython 3.11 on 400000 random texts."
  },
  {
   "property": "C72",
   "status": "proved",
   "theorems": [
    "Pal.C72_usage",
    "Pal.C72_verdict"
   ],
   "note": "C47, C63 and C64 put together; the replies to the two questions are taken in turn."
  },
  {
   "property": "C73",
   "status": "proved",
   "theorems": [
    "Pal.C73_from_str",
    "Pal.C73_refused",
    "Pal.C73_unambiguous",
    "Pal.C73_written",
    "Pal.C73_dashes_and_case",
    "Pal.C73_braces",
    "Pal.C73_urn",
    "Pal.C73_own_text"
   ],
   "note": "Spec/UuidText.lean is also what Spec/Says uses for the GUIDs of a document; it shares only the two Unicode tables with the model."
  },
  {
   "property": "C74",
   "status": "partial",
   "theorems": [
    "Pal.C74_read_partial",
    "Pal.C74_palworld_partial",
    "Pal.C74_enough",
    "Pal.C74_write",
    "Pal.C74_room",
    "Pal.C74_more_read_partial",
    "Pal.C74_more_write",
    "Pal.C74_egg",
    "Pal.C74_counterexample"
   ],
   "note": "The full claim is false of the code: try_read_egg catches RecursionError (C74_counterexample). Proved: C74_write in full, C74_read_partial for every set of decoders without the one for dynamic items, C74_more_write and C74_more_read_partial (more room is never worse, with the same restriction), C74_room (success needs room), C74_egg for what becomes of an egg. The rule for where the stack ends is any predicate of the chain of calls, asked at each property and each nested list."
  },
  {
   "property": "C75",
   "status": "proved",
   "theorems": [
    "Pal.C75_outcome",
    "Pal.C75_reported",
    "Pal.C75_trailer",
    "Pal.C75_justified",
    "Pal.C75_guess",
    "Pal.C75_camp",
    "Pal.C75_leftover",
    "Pal.C75_item"
   ],
   "note": "C75_reported and C75_trailer: what must be printed is; C75_justified: no false alarms; C75_guess: the outcome depends on missing hints only where a guess is printed; C75_camp, C75_leftover, C75_item: exactly what is printed for the blob of a camp module or an item; C75_outcome links the reader with prints to the reader of the other properties. Of a message the kind and the names are modelled, not the wording."
  },
  {
   "property": "C76",
   "status": "partial",
   "theorems": [
    "Pal.C76_plain_partial",
    "Pal.C76_decoders_partial",
    "Pal.C76_palworld_partial",
    "Pal.C76_group_counterexample",
    "Pal.C76_breeding_counterexample",
    "Pal.C76_counterexample"
   ],
   "note": "C76_plain_partial: the bound holds for every file when no decoder is registered. C76_decoders_partial and C76_palworld_partial: with any decoders but those of groups and map objects, at most eight values per byte. With these two there is no bound, so the full claim is false of the code: a GUID read past the end of the data is an id of no bytes, so a group may claim any number of members and a breeding farm any number of eggs (C76_group_counterexample and C76_breeding_counterexample for every count below 2^32, C76_counterexample for a whole file of 442 bytes)."
  },
  {
   "property": "C77",
   "status": "partial",
   "theorems": [
    "Pal.C77_fewer",
    "Pal.C77_palworld_partial",
    "Pal.C77_plain",
    "Pal.C77_counterexample"
   ],
   "note": "C77_fewer: for every table whose paths are not inside one another, the file is read the same apart from the decoding, or reading fails on bytes after an egg, with the decoder of dynamic items kept. C77_palworld_partial and C77_plain: no failure for subsets of Palworld's table without dynamic items. Missing because it is false of the code: with dynamic items kept, a file can become unreadable (C77_counterexample)."
  },
  {
   "property": "C78",
   "status": "proved",
   "theorems": [
    "Pal.C78_direct",
    "Pal.C78_json",
    "Pal.C78_again",
    "Pal.C78_decoders",
    "Pal.C78_palworld",
    "Pal.C78_json_palworld"
   ],
   "note": "C78_direct and C78_json: both directions, for every byte string below 4 GiB, without custom properties. C78_again: a conversion is a fixed point after one step and does not grow. C78_decoders and C78_palworld: reading and writing with custom properties, where well-formed includes that every decoder reproduces its own property. real_wf: a save file of the game from the tests is well-formed. C78_json_palworld: JSON together with custom properties, for files that can be written and have no other NaN than the standard one."
  }
 ]
}