{
 "claims": [
  {
   "property": "C01",
   "status": "proved",
   "theorems": [
    "Figment.C01_merge",
    "Figment.C01_merge_provider_wins"
   ],
   "note": ""
  },
  {
   "property": "C02",
   "status": "proved",
   "theorems": [
    "Figment.C02_join",
    "Figment.C02_join_keeps"
   ],
   "note": ""
  },
  {
   "property": "C03",
   "status": "proved",
   "theorems": [
    "Figment.C03_adjoin",
    "Figment.C03_adjoin_arrays"
   ],
   "note": ""
  },
  {
   "property": "C04",
   "status": "proved",
   "theorems": [
    "Figment.C04_admerge",
    "Figment.C04_admerge_arrays"
   ],
   "note": ""
  },
  {
   "property": "C05",
   "status": "proved",
   "theorems": [
    "Figment.C05_keys"
   ],
   "note": ""
  },
  {
   "property": "C06",
   "status": "proved",
   "theorems": [
    "Figment.C06_fold",
    "Figment.C06_last_merge_wins",
    "Figment.C06_first_join_wins"
   ],
   "note": ""
  },
  {
   "property": "C07",
   "status": "proved",
   "theorems": [
    "Figment.C07_empty",
    "Figment.C07_merge_idempotent",
    "Figment.C07_join_idempotent",
    "Figment.C07_adjoin_not_idempotent"
   ],
   "note": ""
  },
  {
   "property": "C08",
   "status": "proved",
   "theorems": [
    "Figment.C08_join_is_swapped_merge",
    "Figment.C08_join_is_swapped_merge_data",
    "Figment.C08_figments"
   ],
   "note": ""
  },
  {
   "property": "C09",
   "status": "partial",
   "theorems": [
    "Figment.C09_merge_grouping_partial",
    "Figment.C09_figments_partial",
    "Figment.C09_merge_grouping_fails",
    "Figment.C09_merge_grouping_exact"
   ],
   "note": "False in general, as the property says: C09_merge_grouping_fails is a counterexample; the partial theorems hold when no path is a dictionary in the first and third side but not in the second. C09_merge_grouping_exact says exactly at which paths the two groupings differ."
  },
  {
   "property": "C10",
   "status": "proved",
   "theorems": [
    "Figment.C10_case",
    "Figment.C10_emitted",
    "Figment.C10_select",
    "Figment.C10_profiles_distinct",
    "Figment.C10_extract",
    "Figment.C10_uncased"
   ],
   "note": "C10_uncased says, letter by letter, what case is."
  },
  {
   "property": "C11",
   "status": "proved",
   "theorems": [
    "Figment.C11_layering",
    "Figment.C11_global_wins",
    "Figment.C11_selected_wins"
   ],
   "note": ""
  },
  {
   "property": "C12",
   "status": "proved",
   "theorems": [
    "Figment.C12_select",
    "Figment.C12_select_unknown",
    "Figment.C12_last_select"
   ],
   "note": ""
  },
  {
   "property": "C13",
   "status": "proved",
   "theorems": [
    "Figment.C13_selected",
    "Figment.C13_each"
   ],
   "note": ""
  },
  {
   "property": "C14",
   "status": "proved",
   "theorems": [
    "Figment.C14_failure",
    "Figment.C14_extract"
   ],
   "note": "Extraction is modelled for an arbitrary deserialiser."
  },
  {
   "property": "C15",
   "status": "partial",
   "theorems": [
    "Figment.C15_errors_partial",
    "Figment.C15_first_and_last",
    "Figment.C15_middle_errors_lost",
    "Figment.C15_exact"
   ],
   "note": "Holds for at most two failing providers, refuted (C15_middle_errors_lost) for three or more: the middle ones are lost. C15_exact gives the errors iterated over, and their number, for a figment built in any way, figments put into figments included."
  },
  {
   "property": "C16",
   "status": "proved",
   "theorems": [
    "Figment.C16_failure_names_provider",
    "Figment.C16_provide",
    "Figment.C16_built"
   ],
   "note": "For every figment made in any interleaved execution; providers do not make up tags (Step.Plain). C16_built lists all errors reported by a figment built in any way, each with the provider it names."
  },
  {
   "property": "C17",
   "status": "proved",
   "theorems": [
    "Figment.C17_provenance"
   ],
   "note": "Concatenated arrays carry the tag of the first array; Origin says so."
  },
  {
   "property": "C18",
   "status": "proved",
   "theorems": [
    "Figment.C18_tag_tells_profile",
    "Figment.C18_every_tag"
   ],
   "note": ""
  },
  {
   "property": "C19",
   "status": "proved",
   "theorems": [
    "Figment.C19_tags",
    "Figment.C19_tags_unique",
    "Figment.C19_exhausted_panics"
   ],
   "note": ""
  },
  {
   "property": "C20",
   "status": "proved",
   "theorems": [
    "Figment.C20_tag_roundtrip",
    "Figment.C20_tag_parts",
    "Figment.C20_tag_order",
    "Figment.C20_serde",
    "Figment.C20_tag_keys"
   ],
   "note": ""
  },
  {
   "property": "C21",
   "status": "proved",
   "theorems": [
    "Figment.C21_known",
    "Figment.C21_found"
   ],
   "note": "The root dictionary of the merged data has no provenance."
  },
  {
   "property": "C22",
   "status": "proved",
   "theorems": [
    "Figment.C22_figment_provider",
    "Figment.C22_from",
    "Figment.C22_from_extract"
   ],
   "note": "The tag a running provide call has obtained is any pending tag of the execution."
  },
  {
   "property": "C23",
   "status": "proved",
   "theorems": [
    "Figment.C23_find",
    "Figment.C23_find_composes",
    "Figment.C23_find_cases",
    "Figment.C23_find_stops_at_empty"
   ],
   "note": "a path stops at its first empty component"
  },
  {
   "property": "C24",
   "status": "proved",
   "theorems": [
    "Figment.C24_nest_find",
    "Figment.C24_nest_cases"
   ],
   "note": ""
  },
  {
   "property": "C25",
   "status": "proved",
   "theorems": [
    "Figment.C25_contains",
    "Figment.C25_missing",
    "Figment.C25_present"
   ],
   "note": ""
  },
  {
   "property": "C26",
   "status": "partial",
   "theorems": [
    "Figment.C26_focus_twice",
    "Figment.C26_focus_partial",
    "Figment.C26_focus_fails",
    "Figment.C26_focus_data",
    "Figment.C26_focus_exact"
   ],
   "note": "The documented law is refuted (C26_focus_fails); proved where no profile in use holds a non-dictionary on the way to the key. C26_focus_exact says exactly at which paths the law fails; C26_focus_data what focus gives."
  },
  {
   "property": "C27",
   "status": "proved",
   "theorems": [
    "Figment.C27_pair_merged",
    "Figment.C27_pair_stays"
   ],
   "note": ""
  },
  {
   "property": "C28",
   "status": "proved",
   "theorems": [
    "Figment.C28_serialized_dict",
    "Figment.C28_serialized_key",
    "Figment.C28_serialized_value"
   ],
   "note": ""
  },
  {
   "property": "C29",
   "status": "proved",
   "theorems": [
    "Figment.C29_serialize_value"
   ],
   "note": ""
  },
  {
   "property": "C30",
   "status": "partial",
   "theorems": [
    "Figment.C30_value_partial",
    "Figment.C30_extract_partial",
    "Figment.C30_extract_inner_partial",
    "Figment.C30_fails_128",
    "Figment.C30_fails_nullable",
    "Figment.C30_kept",
    "Figment.C30_exact",
    "Figment.C30_extract_exact",
    "Figment.C30_extract_inner_exact"
   ],
   "note": "Full statement fails in the code for 128-bit integers and for options of options or units (C30_fails_*); proved for all other types of the universe (Ty.faithful), all their values, any retagging, any strategy, strict and lossy. Tagged, RelativePathBuf, bool_from_str_or_int, vec_tuple_map, converted, untagged and flattened fields are included. C30_exact and C30_extract*_exact say value by value exactly what comes back: the values (Ty.Kept) without a 128-bit integer and without a Some of what is written as nothing, for all types but those with the crate's own inside."
  },
  {
   "property": "C31",
   "status": "proved",
   "theorems": [
    "Figment.C31_extract",
    "Figment.C31_deserialize",
    "Figment.C31_reserved"
   ],
   "note": "usize/isize come back as the narrowest fixed-width number of the same sign and value, hence == to the original. C31_reserved shows the reserved-key proviso is needed."
  },
  {
   "property": "C32",
   "status": "partial",
   "theorems": [
    "Figment.C32_terminates",
    "Figment.C32_never_fails_partial",
    "Figment.C32_clean",
    "Figment.C32_panics",
    "Figment.C32_panics_iff"
   ],
   "note": "False for some quoted strings with a non-ASCII character before the first escape (C32_panics). Termination is proved for every text, a value for every clean text, and C32_panics_iff says for all text whether it panics."
  },
  {
   "property": "C33",
   "status": "proved",
   "theorems": [
    "Figment.C33_round_trip",
    "Figment.C33_exact"
   ],
   "note": "Printer in Spec/Print.lean. With the floating point of std (FloatOps.std); C33_exact: which values have a text"
  },
  {
   "property": "C34",
   "status": "partial",
   "theorems": [
    "Figment.C34_unescape_partial",
    "Figment.C34_unique",
    "Figment.C34_kept",
    "Figment.C34_quoted_partial",
    "Figment.C34_fails",
    "Figment.C34_loses",
    "Figment.C34_hex",
    "Figment.C34_hex_number",
    "Figment.C34_exact",
    "Figment.C34_right_iff"
   ],
   "note": "False exactly when a non-ASCII character precedes the first escape: C34_fails shows the failure for every such text, the partial theorems the property for all other text. C34_exact describes the result for all text."
  },
  {
   "property": "C35",
   "status": "partial",
   "theorems": [
    "Figment.C35_trim",
    "Figment.C35_text",
    "Figment.C35_grammar_partial",
    "Figment.C35_unambiguous_partial",
    "Figment.C35_plain",
    "Figment.C35_white",
    "Figment.C35_trimmed",
    "Figment.C35_exact"
   ],
   "note": "C35_text, C35_trim and C35_plain hold for every text (C35_text up to the panic of C32); the description of the result by the intended grammar is for clean text. C35_exact describes it for all text, with quoted strings read as the code does."
  },
  {
   "property": "C36",
   "status": "proved",
   "theorems": [
    "Figment.C36_calls_in_order",
    "Figment.C36_emitted",
    "Figment.C36_prefix",
    "Figment.C36_prefix_no_panic",
    "Figment.C36_split",
    "Figment.C36_split_unique",
    "Figment.C36_split_empty"
   ],
   "note": "Calls are described by relations in Spec/Env.lean, written independently of the closures the code builds."
  },
  {
   "property": "C37",
   "status": "proved",
   "theorems": [
    "Figment.C37_keys",
    "Figment.C37_data",
    "Figment.C37_never_fails",
    "Figment.C37_last_wins",
    "Figment.C37_profile",
    "Figment.C37_panics"
   ],
   "note": "Given that value parsing does not panic, as the property says; C37_panics shows a variable for which it does."
  },
  {
   "property": "C38",
   "status": "partial",
   "theorems": [
    "Figment.C38_lowercase_partial",
    "Figment.C38_default",
    "Figment.C38_fails",
    "Figment.C38_exact",
    "Figment.C38_lower"
   ],
   "note": "False as stated: every later call that goes through the keys turns lowercasing on again (C38_fails, for all such chains). C38_exact says for which chains keys keep their case. C38_lower says, letter by letter, what case is."
  },
  {
   "property": "C39",
   "status": "proved",
   "theorems": [
    "Figment.C39_first",
    "Figment.C39_none",
    "Figment.C39_or"
   ],
   "note": ""
  },
  {
   "property": "C40",
   "status": "proved",
   "theorems": [
    "Figment.C40_search",
    "Figment.C40_exact",
    "Figment.C40_absent",
    "Figment.C40_neutral",
    "Figment.C40_ends",
    "Figment.C40_found"
   ],
   "note": ""
  },
  {
   "property": "C41",
   "status": "proved",
   "theorems": [
    "Figment.C41_calls",
    "Figment.C41_string",
    "Figment.C41_file",
    "Figment.C41_file_absent",
    "Figment.C41_file_exact"
   ],
   "note": ""
  },
  {
   "property": "C42",
   "status": "proved",
   "theorems": [
    "Figment.C42_conversions",
    "Figment.C42_equality",
    "Figment.C42_deserialised",
    "Figment.C42_widen",
    "Figment.C42_float",
    "Figment.C42_meaning"
   ],
   "note": ""
  },
  {
   "property": "C43",
   "status": "proved",
   "theorems": [
    "Figment.C43_integer",
    "Figment.C43_fails",
    "Figment.C43_round_trip",
    "Figment.C43_float",
    "Figment.C43_digit",
    "Figment.C43_number"
   ],
   "note": ""
  },
  {
   "property": "C44",
   "status": "proved",
   "theorems": [
    "Figment.C44_strict_lossy",
    "Figment.C44_bool",
    "Figment.C44_num"
   ],
   "note": ""
  },
  {
   "property": "C45",
   "status": "partial",
   "theorems": [
    "Figment.C45_deserialize",
    "Figment.C45_extract",
    "Figment.C45_extract_magic_partial",
    "Figment.C45_extract_inner_partial",
    "Figment.C45_fails",
    "Figment.C45_fails_magic"
   ],
   "note": "Proved for extract, extract_lossy and Value::deserialize, for all types without the crate's magic types and without flattened fields (for those see C77_error). With these, the path has the names of magic fields in it (C45_fails_magic); the theorem skips them. extract_inner gives the path inside before the requested path (C45_fails); the theorem says so."
  },
  {
   "property": "C46",
   "status": "partial",
   "theorems": [
    "Figment.C46_extract_partial",
    "Figment.C46_extract_inner_partial",
    "Figment.C46_extract_exact",
    "Figment.C46_extract_inner_exact",
    "Figment.C46_fails_128",
    "Figment.C46_fails_element"
   ],
   "note": "Proved for every error but messages (of conversions, and that 128-bit integers are not supported), and for messages in data whose arrays are each of one provider, unless it is the whole value asked for that is converted. Otherwise false: at the top there is no provenance (C46_fails_128, C72_fails), in an adjoined array the wrong provider is named (C46_fails_element). C46_extract_exact and C46_extract_inner_exact say for every error, messages included and for all data, which provenance it carries: that of the value, that of the array the value is an element of, or none."
  },
  {
   "property": "C47",
   "status": "proved",
   "theorems": [
    "Figment.C47_part",
    "Figment.C47_part_inner",
    "Figment.C47_extract",
    "Figment.C47_provide"
   ],
   "note": "Ty.part (Spec/Part) is what a type reads, at any depth. Errors are compared too, so the metadata of the values read must agree. Structs that deny unknown fields read all keys."
  },
  {
   "property": "C48",
   "status": "proved",
   "theorems": [
    "Figment.C48_count",
    "Figment.C48_chain",
    "Figment.C48_with_path",
    "Figment.C48_every_path"
   ],
   "note": "a.chain(b) replaces a chain b already had; C48_chain states this."
  },
  {
   "property": "C49",
   "status": "proved",
   "theorems": [
    "Figment.C49_chain",
    "Figment.C49_parts",
    "Figment.C49_kind",
    "Figment.C49_alternatives",
    "Figment.C49_found",
    "Figment.C49_words",
    "Figment.C49_kinds"
   ],
   "note": "For every formatter of floats and quoted strings (std, a parameter). C49_parts gives the parts of one error, C49_chain the lines of a chain, C49_kind that the message of a kind contains everything it carries, C49_alternatives that the texts in backquotes are the alternatives, for names without a backquote. C49_found: the description of what was found tells its kind and content, except for NaN and free text. C49_words and C49_kinds give the words."
  },
  {
   "property": "C50",
   "status": "proved",
   "theorems": [
    "Figment.C50_extract_inner",
    "Figment.C50_relative",
    "Figment.C50_declared",
    "Figment.C50_equality",
    "Figment.C50_round",
    "Figment.C50_round_none"
   ],
   "note": "Values without the crate's reserved keys. Where a path leads is by components, without links; is_dir is a parameter."
  },
  {
   "property": "C51",
   "status": "proved",
   "theorems": [
    "Figment.C51_value",
    "Figment.C51_extract_inner",
    "Figment.C51_equality",
    "Figment.C51_round",
    "Figment.C51_round_default"
   ],
   "note": "Values without the crate's reserved keys; the round trip for the types of C30."
  },
  {
   "property": "C52",
   "status": "partial",
   "theorems": [
    "Figment.C52_restores_partial",
    "Figment.C52_inside",
    "Figment.C52_fails",
    "Figment.C52_fails_cwd",
    "Figment.C52_fails_result",
    "Figment.C52_exact",
    "Figment.C52_result",
    "Figment.C52_refused"
   ],
   "note": "Holds for variable names the operating system accepts; with any other name dropping the jail panics, or aborts, and the working directory is not restored (C52_fails, C52_fails_cwd). C52_exact says exactly when all is restored."
  },
  {
   "property": "C53",
   "status": "proved",
   "theorems": [
    "Figment.C53_inside",
    "Figment.C53_begins",
    "Figment.C53_try_with",
    "Figment.C53_absolute",
    "Figment.C53_relative",
    "Figment.C53_refused",
    "Figment.C53_accepted"
   ],
   "note": "Lexically: links are not modelled."
  },
  {
   "property": "C54",
   "status": "partial",
   "theorems": [
    "Figment.C54_way_partial",
    "Figment.C54_result",
    "Figment.C54_refuses",
    "Figment.C54_fails",
    "Figment.C54_exact",
    "Figment.C54_none",
    "Figment.C54_common"
   ],
   "note": "Holds for bases without . and .. after the common part; C54_fails shows it is false in general. C54_exact says for all paths and bases exactly when the result leads to the path, C54_none when there is no result; C54_common shows the parts they speak of always exist."
  },
  {
   "property": "C55",
   "status": "partial",
   "theorems": [
    "Figment.C55_partial",
    "Figment.C55_extract_inner_partial",
    "Figment.C55_fails",
    "Figment.C55_exact"
   ],
   "note": "Exactly the documented forms, for every deserialiser of the crate and for the value at a path. Missing: 128-bit integers, all of which are rejected, even 0 and 1 (C55_fails). C55_exact says for every value, deserialiser and path what is read."
  },
  {
   "property": "C56",
   "status": "proved",
   "theorems": [
    "Figment.C56_value",
    "Figment.C56_extract_inner",
    "Figment.C56_reads"
   ],
   "note": "For values of the types of Ty.faithful. C56_reads: entries come in the order of the dictionary."
  },
  {
   "property": "C57",
   "status": "proved",
   "theorems": [
    "Figment.C57_env",
    "Figment.C57_default",
    "Figment.C57_fails",
    "Figment.C57_upper"
   ],
   "note": "C57_fails: the documented rule for the default interpolation does not hold. C57_upper says, letter by letter, what case is."
  },
  {
   "property": "C58",
   "status": "proved",
   "theorems": [
    "Figment.C58_display",
    "Figment.C58_same_place",
    "Figment.C58_other"
   ],
   "note": ""
  },
  {
   "property": "C59",
   "status": "proved",
   "theorems": [
    "Figment.C59_tags_ignored",
    "Figment.C59_equivalence",
    "Figment.C59_meaning"
   ],
   "note": ""
  },
  {
   "property": "C60",
   "status": "proved",
   "theorems": [
    "Figment.C60_profiles",
    "Figment.C60_built"
   ],
   "note": "C60_built: for figments built in any way, also focused and put into each other."
  },
  {
   "property": "C61",
   "status": "proved",
   "theorems": [
    "Figment.C61_metadata_order",
    "Figment.C61_built"
   ],
   "note": "A provider counts as added when its provide call obtains its tag. C61_built gives the whole list for a figment built in any way."
  },
  {
   "property": "C62",
   "status": "partial",
   "theorems": [
    "Figment.C62_isolated_partial",
    "Figment.C62_exclusive",
    "Figment.C62_fails",
    "Figment.C62_fails_back",
    "Figment.C62_serial"
   ],
   "note": "Mutual exclusion holds always (C62_exclusive); that each thread finds the state from before any jail holds for accepted variable names and a working directory one can go back to, and fails otherwise. C62_serial, without any condition on names, answers or panics: the process is as if the threads had called try_with one after the other."
  },
  {
   "property": "C63",
   "status": "proved",
   "theorems": [
    "Figment.C63_value",
    "Figment.C63_extract",
    "Figment.C63_extract_inner",
    "Figment.C63_deserialize",
    "Figment.C63_unique",
    "Figment.C63_integer",
    "Figment.C63_fits",
    "Figment.C63_text",
    "Figment.C63_char",
    "Figment.C63_bool",
    "Figment.C63_list",
    "Figment.C63_option"
   ],
   "note": "Specification: Ty.Means (Spec/Means.lean), a relation between type, value and result that does not mention deserialisers. Types: Ty.proper (distinct field names, reserved struct names only for the crate's own types). Only for types in which the crate's own types occur, the data must not have the reserved field names. The types are those of Model/Types (see DESIGN.md)."
  },
  {
   "property": "C64",
   "status": "partial",
   "theorems": [
    "Figment.C64_value_partial",
    "Figment.C64_extract_partial",
    "Figment.C64_extract_inner_partial",
    "Figment.C64_tagged",
    "Figment.C64_relative",
    "Figment.C64_message",
    "Figment.C64_round_left",
    "Figment.C64_round_right",
    "Figment.C64_fails_lossy",
    "Figment.C64_fails_magic",
    "Figment.C64_fails_index",
    "Figment.C64_fails_provenance",
    "Figment.C64_deserialize"
   ],
   "note": "Partial because the full statement is false: inside of Either extraction is never lossy (C64_fails_lossy), the crate's own types do not work inside of it (C64_fails_magic), and an enum is read from a usize index (C64_fails_index). Proved for all other types and data without usize, isize and the reserved keys; C64_tagged and C64_relative say for all types what is read. Also C64_fails_provenance: errors do not name the provider."
  },
  {
   "property": "C65",
   "status": "proved",
   "theorems": [
    "Figment.C65_extract",
    "Figment.C65_round",
    "Figment.C65_select"
   ],
   "note": ""
  },
  {
   "property": "C66",
   "status": "proved",
   "theorems": [
    "Figment.C66_history",
    "Figment.C66_faults",
    "Figment.C66_same"
   ],
   "note": "Spec/Result.lean is the specification; reading a value as a type is Ty.Means (Spec/Means.lean)."
  },
  {
   "property": "C67",
   "status": "proved",
   "theorems": [
    "Figment.C67_place",
    "Figment.C67_file",
    "Figment.C67_later",
    "Figment.C67_gone",
    "Figment.C67_var",
    "Figment.C67_env",
    "Figment.C67_cleared"
   ],
   "note": "Files are kept by the place their path leads to (no links), contents as text. C67_place says exactly when a file is where its path leads. Removal of the directory is what the operating system answers."
  },
  {
   "property": "C68",
   "status": "proved",
   "theorems": [
    "Figment.C68_kinds",
    "Figment.C68_numbers",
    "Figment.C68_extract",
    "Figment.C68_from",
    "Figment.C68_serialize"
   ],
   "note": "Accessors of Value against to_actual and against deserialisation; Value::from against the accessors, against Value::serialize, and back through deserialisation (except 128-bit integers and Value, as for C30)."
  },
  {
   "property": "C69",
   "status": "proved",
   "theorems": [
    "Figment.C69_value",
    "Figment.C69_extract",
    "Figment.C69_extract_inner",
    "Figment.C69_deserialize",
    "Figment.C69_either",
    "Figment.C69_integer",
    "Figment.C69_missing",
    "Figment.C69_unknown",
    "Figment.C69_is_missing",
    "Figment.C69_names"
   ],
   "note": "Exact: an error with the path and kind if and only if Ty.Complains says so, for every type of Ty.proper; with C63 this tells the result of every extraction. Messages included (the texts of what was expected). Types with the crate's own types: on values without reserved keys. The error's tag, profile and metadata are C46's."
  },
  {
   "property": "C70",
   "status": "proved",
   "theorems": [
    "Figment.C70_data",
    "Figment.C70_find",
    "Figment.C70_latest",
    "Figment.C70_extract",
    "Figment.C70_extract_inner",
    "Figment.C70_builtin",
    "Figment.C70_source"
   ],
   "note": "The outcome with provenance: Spec/Outcome folds the calls into a view whose leaves carry the tag of the call they are from, and into what is known of each tag. Providers that fail are C12's and C46's. The name of a type that Serialized reports is a parameter."
  },
  {
   "property": "C71",
   "status": "partial",
   "theorems": [
    "Figment.C71_value",
    "Figment.C71_unique",
    "Figment.C71_path",
    "Figment.C71_order",
    "Figment.C71_profile",
    "Figment.C71_nested",
    "Figment.C71_merged",
    "Figment.C71_reserved",
    "Figment.C71_nested_fails",
    "Figment.C71_reserved_fails",
    "Figment.C71_exact",
    "Figment.C71_exact_unique",
    "Figment.C71_profile_exact",
    "Figment.C71_nested_exact",
    "Figment.C71_refused"
   ],
   "note": "What figment makes of a parsed document, for every format whose parser hands a tree to serde; the parsers are parameters. Proved for all documents without the two reserved keys. With them attribution can be forged (C71_reserved_fails); C71_exact, C71_profile_exact and C71_nested_exact say for every document, with these keys anywhere, what it becomes. Of nested sections whose names differ in case only the last is kept (C71_nested_fails)."
  },
  {
   "property": "C72",
   "status": "partial",
   "theorems": [
    "Figment.C72_parsed",
    "Figment.C72_parsed_error",
    "Figment.C72_via",
    "Figment.C72_via_error",
    "Figment.C72_fails"
   ],
   "note": "Parsed types: proved in full. Converted types: results and messages proved in full; the provenance of a conversion's error is missing when the value asked for is itself converted (C72_via_error says so for all inputs, C72_fails has a case); inside others it is C46."
  },
  {
   "property": "C73",
   "status": "proved",
   "theorems": [
    "Figment.C73_kind",
    "Figment.C73_source",
    "Figment.C73_metadata",
    "Figment.C73_error",
    "Figment.C73_metadata_equivalence",
    "Figment.C73_equivalence"
   ],
   "note": "Equality as in Spec/Equal: IEEE 754 values for numbers, parts of paths for files."
  },
  {
   "property": "C74",
   "status": "proved",
   "theorems": [
    "Figment.C74_extract",
    "Figment.C74_lossy",
    "Figment.C74_provenance",
    "Figment.C74_faithful",
    "Figment.C74_taken",
    "Figment.C74_error",
    "Figment.C74_lossy_inside_fails"
   ],
   "note": "The conversion of an untagged enum is any function: serde tries the variants on its own buffer, without the crate."
  },
  {
   "property": "C75",
   "status": "proved",
   "theorems": [
    "Figment.C75_left",
    "Figment.C75_possible",
    "Figment.C75_no_abort",
    "Figment.C75_fair"
   ],
   "note": ""
  },
  {
   "property": "C76",
   "status": "proved",
   "theorems": [
    "Figment.C76_stuck",
    "Figment.C76_never"
   ],
   "note": "A closure that uses a jail itself: the world stays as it is for ever; the call never returns."
  },
  {
   "property": "C77",
   "status": "proved",
   "theorems": [
    "Figment.C77_extract",
    "Figment.C77_data",
    "Figment.C77_error",
    "Figment.C77_unflat_fails"
   ],
   "note": "compared with the struct without the flattened fields; C77_unflat_fails shows where a flattened struct differs from the same struct not flattened"
  },
  {
   "property": "C78",
   "status": "partial",
   "theorems": [
    "Figment.C78_snapshot",
    "Figment.C78_still",
    "Figment.C78_env",
    "Figment.C78_cases",
    "Figment.C78_read",
    "Figment.C78_read_none",
    "Figment.C78_read_exact",
    "Figment.C78_stays",
    "Figment.C78_source_partial",
    "Figment.C78_source_fails",
    "Figment.C78_optional_fails"
   ],
   "note": "all but the source is proved in full; the source named is the file read only if files do not come and go during the call (C78_source_partial), and C78_source_fails shows a value said to be from another file; C78_optional_fails: a file that is not required is an error if removed between being seen and being read"
  },
  {
   "property": "C79",
   "status": "proved",
   "theorems": [
    "Figment.C79_key",
    "Figment.C79_extract",
    "Figment.C79_extract_inner",
    "Figment.C79_deserialize",
    "Figment.C79_error",
    "Figment.C79_error_inner",
    "Figment.C79_source",
    "Figment.C79_never",
    "Figment.C79_strings",
    "Figment.C79_write",
    "Figment.C79_unsupported",
    "Figment.C79_round",
    "Figment.C79_fails_newtype",
    "Figment.C79_fails_char"
   ],
   "note": "also where such a map is part of another type: Ty.keyed is one of the types of C30, C45, C46, C63 and C69. C79_fails_newtype and C79_fails_char: keys that are written and not read, and the other way round (finding 27)"
  },
  {
   "property": "C80",
   "status": "partial",
   "theorems": [
    "Figment.C80_unique",
    "Figment.C80_value",
    "Figment.C80_number",
    "Figment.C80_lossy_partial",
    "Figment.C80_lossy_exact",
    "Figment.C80_fails",
    "Figment.C80_fails_f32"
   ],
   "note": "C80_lossy_partial: lossy extraction of at most seven bytes as f32, and of more as f64. The other two cases are false in the code (C80_fails, C80_fails_f32: findings 28, 29); C80_lossy_exact says what they give"
  },
  {
   "property": "C81",
   "status": "proved",
   "theorems": [
    "Figment.C81_integer",
    "Figment.C81_exact",
    "Figment.C81_float",
    "Figment.C81_narrow"
   ],
   "note": "with the floating point of std (FloatOps.std)"
  },
  {
   "property": "C82",
   "status": "partial",
   "theorems": [
    "Figment.C82_found",
    "Figment.C82_others",
    "Figment.C82_integer",
    "Figment.C82_bool",
    "Figment.C82_none",
    "Figment.C82_float",
    "Figment.C82_text_partial",
    "Figment.C82_fails"
   ],
   "note": "All but text is proved in full, with the floating point of std. C82_text_partial: text whose quoted strings are ASCII before their first escape; for other text it is false in the code (C82_fails; the defect of C35)"
  },
  {
   "property": "C83",
   "status": "partial",
   "theorems": [
    "Figment.C83_defaults_first_partial",
    "Figment.C83_defaults_last_partial",
    "Figment.C83_untouched",
    "Figment.C83_replaced",
    "Figment.C83_enum_exact",
    "Figment.C83_fails"
   ],
   "note": "Proved for all types (Ty.Layered) without the crate's own, maps of which two texts are the same key, and conversions from what is written as a dictionary that do not give it back (untagged enums). For enums with data Ty.Updates says what the code does: the variant with the lesser name is read, so an overriding variant may be ignored (C83_fails). In a chain, each but the last override must have the shape of a written value, with dictionaries for structs (Ty.Shaped)"
  },
  {
   "property": "C84",
   "status": "proved",
   "theorems": [
    "Figment.C84_any_order",
    "Figment.C84_exact",
    "Figment.C84_merge_join",
    "Figment.C84_merge_join_exact"
   ],
   "note": "For histories of providers that do not fail, starting with an empty figment. Provenance is not included: a value that two providers have alike is from the one that counts."
  },
  {
   "property": "C85",
   "status": "proved",
   "theorems": [
    "Figment.C85_along",
    "Figment.C85_elsewhere",
    "Figment.C85_one_more"
   ],
   "note": "For histories of providers that do not fail, starting with an empty figment. Provenance is not included."
  },
  {
   "property": "C86",
   "status": "proved",
   "theorems": [
    "Figment.C86_extract",
    "Figment.C86_extract_inner",
    "Figment.C86_map"
   ],
   "note": "For structs other than the crate's own, which may occur in the fields if the data has no reserved keys."
  },
  {
   "property": "C87",
   "status": "proved",
   "theorems": [
    "Figment.C87_taken",
    "Figment.C87_order"
   ],
   "note": "What a chain of calls does to a name is the specification of C36."
  },
  {
   "property": "C88",
   "status": "proved",
   "theorems": [
    "Figment.C88_extract",
    "Figment.C88_faults",
    "Figment.C88_same",
    "Figment.C88_wrapped",
    "Figment.C88_focused",
    "Figment.C88_failure"
   ],
   "note": "The rules per step are Spec/Build; what a value means, read as a type, is the specification of C62 to C66."
  },
  {
   "property": "C89",
   "status": "proved",
   "theorems": [
    "Figment.C89_found",
    "Figment.C89_merge",
    "Figment.C89_global",
    "Figment.C89_join",
    "Figment.C89_join_default",
    "Figment.C89_history"
   ],
   "note": "That a join for global does change what is found, and a merge for default need not be found, is shown beside the theorems."
  },
  {
   "property": "C90",
   "status": "proved",
   "theorems": [
    "Figment.C90_struct"
   ],
   "note": "What a value means, read as a type, is the specification of C62 to C66 (Spec/Means)."
  }
 ]
}
