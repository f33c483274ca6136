{
 "claims": [
  {
   "property": "C01",
   "status": "proved",
   "theorems": [
    "Verif.Props.C01_reference_round_trip"
   ],
   "note": ""
  },
  {
   "property": "C02",
   "status": "proved",
   "theorems": [
    "Verif.Props.C02_none_iff_empty",
    "Verif.Props.C02_error_iff_two_dashes",
    "Verif.Props.C02_accepts_rest"
   ],
   "note": ""
  },
  {
   "property": "C03",
   "status": "partial",
   "theorems": [
    "Verif.Props.C03_recompose",
    "Verif.Props.C03_several_at",
    "Verif.Props.C03_depth_partial",
    "Verif.Props.C03_depth_fails_with_dotted_subreference",
    "Verif.Props.C03_depth_exact"
   ],
   "note": "depth/len equal the number of components for identifiers without subreference; with a subreference the exact value is proved and a counterexample to the natural claim is given (dots of the subreference are counted)."
  },
  {
   "property": "C04",
   "status": "proved",
   "theorems": [
    "Verif.Props.C04_word_and_counter",
    "Verif.Props.C04_word_only",
    "Verif.Props.C04_reference"
   ],
   "note": ""
  },
  {
   "property": "C05",
   "status": "proved",
   "theorems": [
    "Verif.Props.C05_parent_single",
    "Verif.Props.C05_no_parent_at_depth_one",
    "Verif.Props.C05_parent_chain"
   ],
   "note": ""
  },
  {
   "property": "C06",
   "status": "proved",
   "theorems": [
    "Verif.Props.C06_parent_range",
    "Verif.Props.C06_no_parent"
   ],
   "note": ""
  },
  {
   "property": "C07",
   "status": "proved",
   "theorems": [
    "Verif.Props.C07_highest",
    "Verif.Props.C07_highest_single"
   ],
   "note": ""
  },
  {
   "property": "C08",
   "status": "proved",
   "theorems": [
    "Verif.Props.C08_constructors_agree",
    "Verif.Props.C08_refeed",
    "Verif.Props.C08_fails_for_empty_parts"
   ],
   "note": "For non-empty parts the constructors agree; an empty part is lost by the tuple constructor only for plain strings (counterexample theorem)."
  },
  {
   "property": "C09",
   "status": "proved",
   "theorems": [
    "Verif.Props.C09_index_first",
    "Verif.Props.C09_malformed",
    "Verif.Props.C09_item_equality",
    "Verif.Props.C09_no_reference"
   ],
   "note": ""
  },
  {
   "property": "C10",
   "status": "proved",
   "theorems": [
    "Verif.Props.C10_urn_round_trip",
    "Verif.Props.C10_urn_round_trip_plain"
   ],
   "note": ""
  },
  {
   "property": "C11",
   "status": "proved",
   "theorems": [
    "Verif.Props.C11_urn_acceptance"
   ],
   "note": ""
  },
  {
   "property": "C12",
   "status": "proved",
   "theorems": [
    "Verif.Props.C12_urn_components"
   ],
   "note": ""
  },
  {
   "property": "C13",
   "status": "proved",
   "theorems": [
    "Verif.Props.C13_last_assignment_wins",
    "Verif.Props.C13_str_after_write",
    "Verif.Props.C13_str_before_write",
    "Verif.Props.C13_failed_assignment_changes_text"
   ],
   "note": "Includes the case of a failing reference assignment, which still drops the cached text."
  },
  {
   "property": "C14",
   "status": "proved",
   "theorems": [
    "Verif.Props.C14_upTo_values",
    "Verif.Props.C14_cuts_nested",
    "Verif.Props.C14_passage_parts",
    "Verif.Props.C14_surplus_parts_lost"
   ],
   "note": "URNs with more than three dotted or five colon parts lose the surplus (counterexample theorem)."
  },
  {
   "property": "C15",
   "status": "proved",
   "theorems": [
    "Verif.Props.C15_upTo_errors"
   ],
   "note": ""
  },
  {
   "property": "C16",
   "status": "proved",
   "theorems": [
    "Verif.Props.C16_length",
    "Verif.Props.C16_length_bounds",
    "Verif.Props.C16_order",
    "Verif.Props.C16_equality",
    "Verif.Props.C16_equivalence"
   ],
   "note": ""
  },
  {
   "property": "C17",
   "status": "proved",
   "theorems": [
    "Verif.Props.C17_rebuild_parses_back",
    "Verif.Props.C17_passage_without_work_lost"
   ],
   "note": "A passage without a work is lost on rebuild (counterexample theorem); the hypothesis excludes it."
  },
  {
   "property": "C18",
   "status": "proved",
   "theorems": [
    "Verif.Props.C18_chain_enumeration",
    "Verif.Props.C18_preorder",
    "Verif.Props.C18_index",
    "Verif.Props.C18_last"
   ],
   "note": ""
  },
  {
   "property": "C19",
   "status": "proved",
   "theorems": [
    "Verif.Props.C19_match",
    "Verif.Props.C19_match_ingested"
   ],
   "note": "match is defined by recursion through roots, so the theorem is stated for every sufficient recursion bound."
  },
  {
   "property": "C20",
   "status": "proved",
   "theorems": [
    "Verif.Props.C20_placeholders_numbered",
    "Verif.Props.C20_pieces",
    "Verif.Props.C20_no_placeholder_left"
   ],
   "note": ""
  },
  {
   "property": "C21",
   "status": "proved",
   "theorems": [
    "Verif.Props.C21_read",
    "Verif.Props.C21_scope_xpath_round_trip",
    "Verif.Props.C21_write_back",
    "Verif.Props.C21_fails_with_dash",
    "Verif.Props.C21_fails_with_long_xpath",
    "Verif.Props.C21_step_characters",
    "Verif.Props.C21_no_step"
   ],
   "note": "Holds for scopes and one-step xpaths over the characters the splitter supports; counterexample theorems for a dash and for an xpath of two steps."
  },
  {
   "property": "C22",
   "status": "proved",
   "theorems": [
    "Verif.Props.C22_fill_list",
    "Verif.Props.C22_raises_iff",
    "Verif.Props.C22_fill_reference",
    "Verif.Props.C22_fill_none",
    "Verif.Props.C22_fill_xpath",
    "Verif.Props.C22_numbers_ignored",
    "Verif.Props.C22_numeric_constant_consumed"
   ],
   "note": "Fixed tests whose value starts with a digit are consumed as placeholders (counterexample theorem C22_numeric_constant_consumed); the segment well-formedness excludes them."
  },
  {
   "property": "C23",
   "status": "proved",
   "theorems": [
    "Verif.Props.C23_level_members",
    "Verif.Props.C23_depth",
    "Verif.Props.C23_levels_partition",
    "Verif.Props.C23_index",
    "Verif.Props.C23_len",
    "Verif.Props.C23_len_of_citation",
    "Verif.Props.C23_negative_index_of_citation_shifted"
   ],
   "note": "Negative levels of a DTS citation (not set) are shifted by one because its depth counts itself: C23_negative_index_of_citation_shifted."
  },
  {
   "property": "C24",
   "status": "proved",
   "theorems": [
    "Verif.Props.C24_roots_lead_to_the_top",
    "Verif.Props.C24_placed_citation_has_a_root",
    "Verif.Props.C24_fails_on_move",
    "Verif.Props.C24_fails_with_add_child",
    "Verif.Props.C24_ingest"
   ],
   "note": "Histories in which only unplaced citations are placed. Moving an assembled part and add_child break the claim (counterexample theorems)."
  },
  {
   "property": "C25",
   "status": "proved",
   "theorems": [
    "Verif.Props.C25_ingest",
    "Verif.Props.C25_export",
    "Verif.Props.C25_ingest_export",
    "Verif.Props.C25_export_ingest",
    "Verif.Props.C25_empty_type_list",
    "Verif.Props.C25_ingest_without_root"
   ],
   "note": "JSON-LD expansion (pyld) is modelled by expandCite. An empty type list raises IndexError; citations ingested without a set have no common root (theorems)."
  },
  {
   "property": "C26",
   "status": "proved",
   "theorems": [
    "Verif.Props.C26_normalize",
    "Verif.Props.C26_normalize_below_root",
    "Verif.Props.C26_join",
    "Verif.Props.C26_leading_descendant_lost"
   ],
   "note": "Path expressions over steps whose text holds no slash."
  },
  {
   "property": "C27",
   "status": "proved",
   "theorems": [
    "Verif.Props.C27_selection",
    "Verif.Props.C27_single_passage",
    "Verif.Props.C27_unknown",
    "Verif.Props.C27_first_in_document_order",
    "Verif.Props.C27_chain_is_cut",
    "Verif.Props.C27_descendant_prefers_child"
   ],
   "note": "The passage equals the document emptied outside the chain to the selected element, for every path that selects exactly one element at each step."
  },
  {
   "property": "C28",
   "status": "proved",
   "theorems": [
    "Verif.Props.C28_range_of_text",
    "Verif.Props.C28_range",
    "Verif.Props.C28_unknown_end",
    "Verif.Props.C28_start_contains_end",
    "Verif.Props.C28_end_contains_start",
    "Verif.Props.C28_identity_tells_apart",
    "Verif.Props.C28_objectify_tells_apart",
    "Verif.Props.C28_fails_with_equal_texts",
    "Verif.Props.C28_reversed_not_rejected"
   ],
   "note": "Ranges whose start precedes their end in document order; a reversed range is not refused and yields something else. lxml.objectify compares leaf elements by value: the theorem assumes the comparison only identifies the elements of the two branches when they are the same."
  },
  {
   "property": "C29",
   "status": "proved",
   "theorems": [
    "Verif.Props.C29_lists_units",
    "Verif.Props.C29_lists_units_under",
    "Verif.Props.C29_listing_exact",
    "Verif.Props.C29_unit_iff",
    "Verif.Props.C29_no_duplicates",
    "Verif.Props.C29_document_order",
    "Verif.Props.C29_child_steps_separate",
    "Verif.Props.C29_names",
    "Verif.Props.C29_fails_with_hyphen"
   ],
   "note": "Texts whose refsDecl are child or descendant steps and whose identifiers are writable; a hyphen in an identifier makes a listed item unreadable (counterexample theorem)."
  },
  {
   "property": "C30",
   "status": "proved",
   "theorems": [
    "Verif.Props.C30_level_below_passage",
    "Verif.Props.C30_default_level",
    "Verif.Props.C30_level_zero",
    "Verif.Props.C30_range_level",
    "Verif.Props.C30_range_level_zero",
    "Verif.Props.C30_range_end_above_start"
   ],
   "note": "All integers as level, single passages and ranges. Range whose end is less deep than its start: counterexample theorem."
  },
  {
   "property": "C31",
   "status": "proved",
   "theorems": [
    "Verif.Props.C31_units_retrievable",
    "Verif.Props.C31_listed_retrievable",
    "Verif.Props.C31_unknown_reference",
    "Verif.Props.C31_too_deep",
    "Verif.Props.C31_fails_with_slash",
    "Verif.Props.C31_fails_with_quote",
    "Verif.Props.C31_duplicates_hide"
   ],
   "note": "Identifiers with a slash or a quotation mark, and duplicated identifiers, break the claim (counterexample theorems)."
  },
  {
   "property": "C32",
   "status": "proved",
   "theorems": [
    "Verif.Props.C32_siblings",
    "Verif.Props.C32_simple_siblings",
    "Verif.Props.C32_fails_with_subreference"
   ],
   "note": "A reference with a subreference has no siblings (counterexample theorem)."
  },
  {
   "property": "C33",
   "status": "proved",
   "theorems": [
    "Verif.Props.C33_range_siblings",
    "Verif.Props.C33_mixed_levels",
    "Verif.Props.C33_clipped_to_one_unit",
    "Verif.Props.C33_simple_range_next_inside"
   ],
   "note": "The window of the same length, clipped at the ends of the text. Simple passages (CapitainsCtsSimplePassage) of a range give a next reference inside the range (counterexample theorem)."
  },
  {
   "property": "C34",
   "status": "proved",
   "theorems": [
    "Verif.Props.C34_single",
    "Verif.Props.C34_range"
   ],
   "note": "For ranges the inverse holds when the next window is not clipped."
  },
  {
   "property": "C35",
   "status": "proved",
   "theorems": [
    "Verif.Props.C35_plain_text",
    "Verif.Props.C35_nothing_lost",
    "Verif.Props.C35_empty_separator",
    "Verif.Props.C35_only_document_text",
    "Verif.Props.C35_excluded_itself",
    "Verif.Props.C35_passage_text",
    "Verif.Props.C35_simple_passage",
    "Verif.Props.C35_range_text",
    "Verif.Props.C35_positions",
    "Verif.Props.C35_markup_splits_words",
    "Verif.Props.C35_simple_range_is_start"
   ],
   "note": "The separator (a space by default) is put between text nodes, so words are cut at markup inside of them: C35_markup_splits_words. The simple passage of a range is that of its start: C35_simple_range_is_start."
  },
  {
   "property": "C36",
   "status": "proved",
   "theorems": [
    "Verif.Props.C36_entries",
    "Verif.Props.C36_equal_depth",
    "Verif.Props.C36_nested_dictionary",
    "Verif.Props.C36_empty_text"
   ],
   "note": "For texts. Passages: see C66."
  },
  {
   "property": "C37",
   "status": "proved",
   "theorems": [
    "Verif.Props.C37_found",
    "Verif.Props.C37_unknown",
    "Verif.Props.C37_exists",
    "Verif.Props.C37_contains"
   ],
   "note": "For heaps of objects of any shape; the descendants must be listable, which C38_succeeds gives for every shape without cycles within Python's recursion limit."
  },
  {
   "property": "C38",
   "status": "proved",
   "theorems": [
    "Verif.Props.C38_mem_descendants",
    "Verif.Props.C38_once_per_path",
    "Verif.Props.C38_readable",
    "Verif.Props.C38_succeeds",
    "Verif.Props.C38_cycle_fails"
   ],
   "note": "Cyclic collections raise RecursionError: C38_cycle_fails."
  },
  {
   "property": "C39",
   "status": "proved",
   "theorems": [
    "Verif.Props.C39_parent_is_last",
    "Verif.Props.C39_children_are_first",
    "Verif.Props.C39_agree",
    "Verif.Props.C39_graph",
    "Verif.Props.C39_fails_on_move"
   ],
   "note": "C39_parent_is_last and C39_children_are_first describe every history exactly. Moving a collection leaves it among the members of the old parent: C39_fails_on_move."
  },
  {
   "property": "C40",
   "status": "proved",
   "theorems": [
    "Verif.Props.C40_delete",
    "Verif.Props.C40_metadata",
    "Verif.Props.C40_container_metadata_lost",
    "Verif.Props.C40_own_identifier",
    "Verif.Props.C40_fails_after_move",
    "Verif.Props.C40_unknown"
   ],
   "note": "That the metadata of the container is erased too is a defect of the code: C40_container_metadata_lost. The identifier of the collection itself is still found after its deletion: C40_own_identifier."
  },
  {
   "property": "C41",
   "status": "proved",
   "theorems": [
    "Verif.Props.C41_work",
    "Verif.Props.C41_work_refuses",
    "Verif.Props.C41_textgroup",
    "Verif.Props.C41_textgroup_refuses"
   ],
   "note": "Dictionaries of children are lists of values in insertion order. deepcopy is the identity, labels and metadata are not kept."
  },
  {
   "property": "C42",
   "status": "proved",
   "theorems": [
    "Verif.Props.C42_length"
   ],
   "note": "Texts are counted as often as they are held."
  },
  {
   "property": "C43",
   "status": "proved",
   "theorems": [
    "Verif.Props.C43_dispatch",
    "Verif.Props.C43_unknown_inventory",
    "Verif.Props.C43_default",
    "Verif.Props.C43_choice_unique"
   ],
   "note": "An inventory that the collection does not have raises KeyError: C43_unknown_inventory. An inventory that already has a member with the identifier keeps it (stated in C43_dispatch)."
  },
  {
   "property": "C44",
   "status": "proved",
   "theorems": [
    "Verif.Props.C44_dispatch_all",
    "Verif.Props.C44_parse",
    "Verif.Props.C44_no_invention",
    "Verif.Props.C44_second_description_lost",
    "Verif.Props.C44_identifier_clash",
    "Verif.Props.C44_undispatched",
    "Verif.Props.C44_cts_identifiers"
   ],
   "note": "C44_cts_identifiers shows that CTS URNs meet the condition on identifiers. Departures: a work described twice within one textgroup loses the texts of the second description (C44_second_description_lost); a textgroup with the identifier of an inventory raises (C44_identifier_clash)."
  },
  {
   "property": "C45",
   "status": "proved",
   "theorems": [
    "Verif.Props.C45_filters",
    "Verif.Props.C45_urn_object"
   ],
   "note": "A URN object as filter matches no text: C45_urn_object."
  },
  {
   "property": "C46",
   "status": "proved",
   "theorems": [
    "Verif.Props.C46_pages_make_list",
    "Verif.Props.C46_page",
    "Verif.Props.C46_all_pages",
    "Verif.Props.C46_past_the_end",
    "Verif.Props.C46_default_page",
    "Verif.Props.C46_page_after_full_last_page",
    "Verif.Props.C46_empty_list",
    "Verif.Props.C46_negative_page"
   ],
   "note": "Departures proved beside it: the page just after a full last page is empty (C46_page_after_full_last_page); an empty list announces items from page 2 on (C46_empty_list); page None or 0 is reported as such (C46_default_page); negative pages count from the end (C46_negative_page). Floating point rounding of length/limit (lengths above 2^53) is not modelled."
  },
  {
   "property": "C47",
   "status": "proved",
   "theorems": [
    "Verif.Props.C47_version",
    "Verif.Props.C47_work",
    "Verif.Props.C47_refused",
    "Verif.Props.C47_other_work"
   ],
   "note": "URNs are compared by their beginning only, so that the edition of another work can be used: C47_other_work."
  },
  {
   "property": "C48",
   "status": "proved",
   "theorems": [
    "Verif.Props.C48_get_after_history",
    "Verif.Props.C48_no_duplicates",
    "Verif.Props.C48_objects_apart",
    "Verif.Props.C48_set_get"
   ],
   "note": "History of set, add, remove and unlink on any objects; values are terms and strings (Python numbers are not modelled)."
  },
  {
   "property": "C49",
   "status": "proved",
   "theorems": [
    "Verif.Props.C49_get_language",
    "Verif.Props.C49_single",
    "Verif.Props.C49_single_any",
    "Verif.Props.C49_fails_with_link"
   ],
   "note": "Values that are links raise AttributeError depending on the order of reading: C49_fails_with_link. Language tags are compared exactly; rdflib ignores case."
  },
  {
   "property": "C50",
   "status": "proved",
   "theorems": [
    "Verif.Props.C50_remove",
    "Verif.Props.C50_unlink",
    "Verif.Props.C50_nothing_else",
    "Verif.Props.C50_getOr"
   ],
   "note": "Also getOr."
  },
  {
   "property": "C51",
   "status": "proved",
   "theorems": [
    "Verif.Props.C51_capacities",
    "Verif.Props.C51_runs_first",
    "Verif.Props.C51_no_implementation",
    "Verif.Props.C51_default",
    "Verif.Props.C51_not_implemented",
    "Verif.Props.C51_no_default"
   ],
   "note": "The result is the class whose __export__ runs. A class counts as declaring what it inherits."
  },
  {
   "property": "C52",
   "status": "proved",
   "theorems": [
    "Verif.Props.C52_terminates",
    "Verif.Props.C52_only_source",
    "Verif.Props.C52_all_descendants",
    "Verif.Props.C52_all_ascendants",
    "Verif.Props.C52_both_ways",
    "Verif.Props.C52_limited_descendants",
    "Verif.Props.C52_limited_ascendants",
    "Verif.Props.C52_blank",
    "Verif.Props.C52_one_level",
    "Verif.Props.C52_limit_depends_on_order",
    "Verif.Props.C52_fails_with_same_string"
   ],
   "note": "Departures: with a limit the result depends on the order of reading (C52_limit_depends_on_order); a literal that reads like an identifier hides an object (C52_fails_with_same_string). Upwards blank nodes are not climbed into (C52_all_ascendants states this exactly)."
  },
  {
   "property": "C53",
   "status": "proved",
   "theorems": [
    "Verif.Props.C53_unknown_prefix",
    "Verif.Props.C53_expand",
    "Verif.Props.C53_fails_on_second_occurrence"
   ],
   "note": "The natural claim for strings in which the prefix occurs again is false: C53_fails_on_second_occurrence shows that every occurrence is replaced."
  },
  {
   "property": "C54",
   "status": "proved",
   "theorems": [
    "Verif.Props.C54_runs_become_one",
    "Verif.Props.C54_no_adjacent_spaces",
    "Verif.Props.C54_other_characters",
    "Verif.Props.C54_words",
    "Verif.Props.C54_unchanged",
    "Verif.Props.C54_idempotent"
   ],
   "note": ""
  },
  {
   "property": "C55",
   "status": "proved",
   "theorems": [
    "Verif.Props.C55_get",
    "Verif.Props.C55_get_missing",
    "Verif.Props.C55_set_then_value",
    "Verif.Props.C55_set_get",
    "Verif.Props.C55_set_elsewhere",
    "Verif.Props.C55_set_succeeds"
   ],
   "note": "nested_get creates the missing keys with empty dictionaries; C55_get_missing states exactly this."
  },
  {
   "property": "C56",
   "status": "proved",
   "theorems": [
    "Verif.Props.C56_no_markup",
    "Verif.Props.C56_unescape",
    "Verif.Props.C56_node_reads_back",
    "Verif.Props.C56_fails_with_quote_in_attribute"
   ],
   "note": "Attribute values are not escaped: C56_node_reads_back asks for values without double quote, and C56_fails_with_quote_in_attribute shows that this is needed."
  },
  {
   "property": "C57",
   "status": "proved",
   "theorems": [
    "Verif.Props.C57_call",
    "Verif.Props.C57_once",
    "Verif.Props.C57_requests",
    "Verif.Props.C57_passage",
    "Verif.Props.C57_siblings",
    "Verif.Props.C57_fails_siblings_of_text",
    "Verif.Props.C57_reffs",
    "Verif.Props.C57_reffs_range",
    "Verif.Props.C57_reffs_text",
    "Verif.Props.C57_level_zero"
   ],
   "note": "Departure: a requested level of 0 is sent without the depth (C57_level_zero)."
  },
  {
   "property": "C58",
   "status": "proved",
   "theorems": [
    "Verif.Props.C58_call",
    "Verif.Props.C58_collection",
    "Verif.Props.C58_document",
    "Verif.Props.C58_navigation",
    "Verif.Props.C58_never_both",
    "Verif.Props.C58_tuple"
   ],
   "note": "Departure: a reference given as a tuple is sent as its text (C58_tuple)."
  },
  {
   "property": "C59",
   "status": "proved",
   "theorems": [
    "Verif.Props.C59_chain",
    "Verif.Props.C59_only_chains",
    "Verif.Props.C59_once",
    "Verif.Props.C59_single",
    "Verif.Props.C59_endless",
    "Verif.Props.C59_nothing",
    "Verif.Props.C59_request"
   ],
   "note": "JSON-LD expansion is an input: a reply is what the code reads of it. Departures: one reference alone is taken apart into start and end (C59_single), an empty document raises AttributeError (C59_nothing), endless links are followed without end (C59_endless)."
  },
  {
   "property": "C60",
   "status": "proved",
   "theorems": [
    "Verif.Props.C60_children",
    "Verif.Props.C60_children_once",
    "Verif.Props.C60_parents",
    "Verif.Props.C60_parents_first",
    "Verif.Props.C60_no_length",
    "Verif.Props.C60_retrieve_again",
    "Verif.Props.C60_requests",
    "Verif.Props.C60_fails_link",
    "Verif.Props.C60_request"
   ],
   "note": "JSON-LD expansion is an input. Departures: after the parents were read the pages of children not yet requested never are (C60_parents_first); len() raises TypeError until then (C60_no_length); retrieve() of a member asks each time (C60_retrieve_again); the first page is requested again (C60_requests)."
  },
  {
   "property": "C61",
   "status": "proved",
   "theorems": [
    "Verif.Props.C61_pages",
    "Verif.Props.C61_first_parameter"
   ],
   "note": "For links whose page follows another parameter; a page that is the first parameter is not seen (C61_first_parameter)."
  },
  {
   "property": "C62",
   "status": "proved",
   "theorems": [
    "Verif.Props.C62_announced",
    "Verif.Props.C62_asked_once",
    "Verif.Props.C62_failure",
    "Verif.Props.C62_never_announced",
    "Verif.Props.C62_first",
    "Verif.Props.C62_children"
   ],
   "note": "An endpoint that never announces siblings is asked at every reading (C62_never_announced). lastId without units inside raises IndexError (C62_children)."
  },
  {
   "property": "C63",
   "status": "proved",
   "theorems": [
    "Verif.Props.C63_attribute_of_last_test",
    "Verif.Props.C63_no_test",
    "Verif.Props.C63_fails_with_digit_in_name"
   ],
   "note": ""
  },
  {
   "property": "C64",
   "status": "partial",
   "theorems": [
    "Verif.Props.C64_next_has_no_siblings",
    "Verif.Props.C64_child_belongs_to_text_partial",
    "Verif.Props.C64_fails_on_edition"
   ],
   "note": "The claim is false of the code: C64_next_has_no_siblings proves for every text that the siblings of passage.next always raise, because next/prev read the old passage as their text. C64_child_belongs_to_text_partial is the part that holds (passages obtained with getTextualNode)."
  },
  {
   "property": "C65",
   "status": "proved",
   "theorems": [
    "Verif.Props.C65_children",
    "Verif.Props.C65_first_last",
    "Verif.Props.C65_no_children_raises"
   ],
   "note": "A unit above the deepest level that has no children raises KeyError; this is part of the theorem."
  },
  {
   "property": "C66",
   "status": "partial",
   "theorems": [
    "Verif.Props.C66_listing_not_empty",
    "Verif.Props.C66_passage_export_never_succeeds",
    "Verif.Props.C66_passage_export_raises"
   ],
   "note": "The claim is false of the code: C66_passage_export_never_succeeds proves that the export never gives a dictionary for any passage of any text. C66_listing_not_empty is the fact about listings that it rests on."
  },
  {
   "property": "C67",
   "status": "proved",
   "theorems": [
    "Verif.Props.C67_metadata",
    "Verif.Props.C67_inventories",
    "Verif.Props.C67_namespace",
    "Verif.Props.C67_edition_language"
   ],
   "note": "Departures: the URN of a namespace raises UnknownCollection although texts are under it (C67_namespace); an edition takes the language of its work (C67_edition_language). For texts that are editions, translations or commentaries."
  },
  {
   "property": "C68",
   "status": "proved",
   "theorems": [
    "Verif.Props.C68_entry_once"
   ],
   "note": ""
  },
  {
   "property": "C69",
   "status": "proved",
   "theorems": [
    "Verif.Props.C69_one_retriever",
    "Verif.Props.C69_navigation",
    "Verif.Props.C69_requests",
    "Verif.Props.C69_parent",
    "Verif.Props.C69_parent_of_top",
    "Verif.Props.C69_next_unannounced"
   ],
   "note": "Any sequence of moves. Departures: the parent of a top-level passage asks for a passage None (C69_parent_of_top); without announcements next is the passage itself (C69_next_unannounced)."
  },
  {
   "property": "C70",
   "status": "proved",
   "theorems": [
    "Verif.Props.C70_node",
    "Verif.Props.C70_siblings",
    "Verif.Props.C70_reffs"
   ],
   "note": "Departures: levels are not counted from the passage and -1 asks for level 1 (in the statement of C70_reffs). The label that getPassagePlus reads from the reply is not modelled."
  },
  {
   "property": "C71",
   "status": "proved",
   "theorems": [
    "Verif.Props.C71_inventory",
    "Verif.Props.C71_textgroup",
    "Verif.Props.C71_work",
    "Verif.Props.C71_text",
    "Verif.Props.C71_collection",
    "Verif.Props.C71_same_texts",
    "Verif.Props.C71_text_unchanged",
    "Verif.Props.C71_stable",
    "Verif.Props.C71_fails_edition_language",
    "Verif.Props.C71_fails_single_step",
    "Verif.Props.C71_fails_no_language",
    "Verif.Props.C71_fails_empty_text",
    "Verif.Props.C71_fails_undeclared",
    "Verif.Props.C71_fails_undeclared_prefix",
    "Verif.Props.C71_fails_quote",
    "Verif.Props.C71_fails_plain"
   ],
   "note": "The conditions are those of the English statement (InvSafe, HeaderSafe); beyond them the trip fails, see the C71_fails theorems. XML is read with a reader for the subset that the export writes (Spec/InventoryXml), not with lxml. Structured metadata are not part of the modelled export."
  },
  {
   "property": "C72",
   "status": "proved",
   "theorems": [
    "Verif.Props.C72_predicates",
    "Verif.Props.C72_values",
    "Verif.Props.C72_success",
    "Verif.Props.C72_only_again",
    "Verif.Props.C72_fails_title",
    "Verif.Props.C72_fails_plain_string",
    "Verif.Props.C72_fails_list_grows"
   ],
   "note": "compute_qname of rdflib is a parameter (nsOf), str.title another. Departures, each with its theorem: values are changed to title case (C72_fails_title), a predicate listed in only as a plain string is left out (C72_fails_plain_string), the list of the caller grows (C72_fails_list_grows)."
  },
  {
   "property": "C73",
   "status": "proved",
   "theorems": [
    "Verif.Props.C73_declared",
    "Verif.Props.C73_given",
    "Verif.Props.C73_missing",
    "Verif.Props.C73_round_trip",
    "Verif.Props.C73_fails_no_pattern",
    "Verif.Props.C73_fails_no_replacement",
    "Verif.Props.C73_fails_double_quotes"
   ],
   "note": "XML is read with the reader of Spec/InventoryXml; names are the prefixed names tei:... that the export writes. The objects and roots that ingest makes are those of C24_ingest. Departures: IndexError without patterns, TypeError without replacement, double quotes are written unescaped (C73_fails theorems)."
  },
  {
   "property": "C74",
   "status": "proved",
   "theorems": [
    "Verif.Props.C74_values",
    "Verif.Props.C74_keys",
    "Verif.Props.C74_vocabulary",
    "Verif.Props.C74_base",
    "Verif.Props.C74_members",
    "Verif.Props.C74_citations",
    "Verif.Props.C74_success",
    "Verif.Props.C74_fails_formats",
    "Verif.Props.C74_fails_type"
   ],
   "note": "compute_qname of rdflib and toPython of typed literals are parameters (cut, with the property QNames, and native). Departures: with a namespace manager, and in the two RDF formats, the export raises AttributeError (C74_fails_formats); the prefix of a type that no predicate uses is missing in the context, so that the type cannot be expanded (C74_fails_type)."
  },
  {
   "property": "C75",
   "status": "proved",
   "theorems": [
    "Verif.Props.C75_graph",
    "Verif.Props.C75_again",
    "Verif.Props.C75_success",
    "Verif.Props.C75_tree",
    "Verif.Props.C75_values",
    "Verif.Props.C75_size",
    "Verif.Props.C75_type",
    "Verif.Props.C75_fails_parents",
    "Verif.Props.C75_fails_link",
    "Verif.Props.C75_fails_new_size",
    "Verif.Props.C75_fails_same_member"
   ],
   "note": "Documents are given after JSON-LD expansion. Departures: parsing parents always raises TypeError (C75_fails_parents), links raise KeyError (C75_fails_link), another number of members on a second parse is added to the first (C75_fails_new_size), two members with one identifier are one child (C75_fails_same_member)."
  },
  {
   "property": "C76",
   "status": "proved",
   "theorems": [
    "Verif.Props.C76_graph",
    "Verif.Props.C76_tree",
    "Verif.Props.C76_type",
    "Verif.Props.C76_fails_link",
    "Verif.Props.C76_fails_label_language",
    "Verif.Props.C76_fails_no_label",
    "Verif.Props.C76_fails_datatype"
   ],
   "note": "Expansion by pyld is the function expandDoc on exported documents. Departures: with a link among the values the document cannot be parsed (C76_fails_link); languages of labels, datatypes of texts are lost and a missing label becomes None (C76_fails_label_language, C76_fails_datatype, C76_fails_no_label); the type may be lost (C74_fails_type)."
  },
  {
   "property": "C77",
   "status": "proved",
   "theorems": [
    "Verif.Props.C77_opens",
    "Verif.Props.C77_links",
    "Verif.Props.C77_walk",
    "Verif.Props.C77_request",
    "Verif.Props.C77_collection_kept",
    "Verif.Props.C77_collection_once",
    "Verif.Props.C77_depth",
    "Verif.Props.C77_parent_whole",
    "Verif.Props.C77_parent",
    "Verif.Props.C77_fails_up",
    "Verif.Props.C77_fails_collection_link",
    "Verif.Props.C77_fails_parent"
   ],
   "note": "Links are given after parsing of the header. Departures: an up link alone is not read and a parent link alone makes the document unreadable (C77_fails_up, C77_fails_parent); a collection link that names a passage makes the collection a reference, so that depth raises AttributeError (C77_fails_collection_link); the parent of a passage whose parent is not announced is the whole text (C77_parent_whole)."
  },
  {
   "property": "C78",
   "status": "proved",
   "theorems": [
    "Verif.Props.C78_childIds",
    "Verif.Props.C78_children",
    "Verif.Props.C78_first_last",
    "Verif.Props.C78_leaf",
    "Verif.Props.C78_fails_single",
    "Verif.Props.C78_fails_level"
   ],
   "note": "Departures: a single reference below a passage is taken apart, so that last is None and children has the whole text as second child (C78_fails_single); the level given to getReffs has no effect (C78_fails_level)."
  },
  {
   "property": "C79",
   "status": "proved",
   "theorems": [
    "Verif.Props.C79_history",
    "Verif.Props.C79_property",
    "Verif.Props.C79_property_language",
    "Verif.Props.C79_label",
    "Verif.Props.C79_title_is_label",
    "Verif.Props.C79_links",
    "Verif.Props.C79_lang",
    "Verif.Props.C79_lang_of_new_text",
    "Verif.Props.C79_translations",
    "Verif.Props.C79_fails_empty",
    "Verif.Props.C79_fails_two_values",
    "Verif.Props.C79_fails_no_language",
    "Verif.Props.C79_fails_two_languages"
   ],
   "note": "Departures: asking for a property without values in a language raises StopIteration (C79_fails_empty); of two values in one language the dictionary keeps one, which one depends on the order of reading (C79_fails_two_values); a work without language is in the language \"None\" and passes it on (C79_fails_no_language); a title given as a literal with its own language and another language is a property in the one and a label in the other (C79_fails_two_languages)."
  },
  {
   "property": "C80",
   "status": "proved",
   "theorems": [
    "Verif.Props.C80_graph",
    "Verif.Props.C80_twice",
    "Verif.Props.C80_orphan",
    "Verif.Props.C80_fails_link",
    "Verif.Props.C80_getters",
    "Verif.Props.C80_title",
    "Verif.Props.C80_fails_empty_title",
    "Verif.Props.C80_citation",
    "Verif.Props.C80_fails_no_citation"
   ],
   "note": "Departures: a link among the names raises AttributeError (C80_fails_link); an empty title hides the others in its language (C80_fails_empty_title); a text without citation raises AttributeError (C80_fails_no_citation). What was added before an error is not modelled."
  },
  {
   "property": "C81",
   "status": "proved",
   "theorems": [
    "Verif.Props.C81_new",
    "Verif.Props.C81_type",
    "Verif.Props.C81_equal",
    "Verif.Props.C81_equivalence",
    "Verif.Props.C81_fails_unequal",
    "Verif.Props.C81_contains",
    "Verif.Props.C81_fails_contains",
    "Verif.Props.C81_sets",
    "Verif.Props.C81_fails_other",
    "Verif.Props.C81_citations",
    "Verif.Props.C81_fails_parsed_twice",
    "Verif.Props.C81_fails_recursion"
   ],
   "note": "Departures: != is not overridden, so that references of different types are neither equal nor unequal (C81_fails_unequal); a string is not in a set whose reference has a type (C81_fails_contains); comparing a set with a list or an equal tuple raises AttributeError (C81_fails_other); a structure parsed twice gives unequal citations (C81_fails_parsed_twice); citations built by hand with children cannot be compared (C81_fails_recursion)."
  },
  {
   "property": "C82",
   "status": "proved",
   "theorems": [
    "Verif.Props.C82_work_or_text",
    "Verif.Props.C82_unit",
    "Verif.Props.C82_range",
    "Verif.Props.C82_whole",
    "Verif.Props.C82_unknown_reference",
    "Verif.Props.C82_siblings",
    "Verif.Props.C82_range_siblings",
    "Verif.Props.C82_reffs",
    "Verif.Props.C82_reffs_under",
    "Verif.Props.C82_listed_retrievable",
    "Verif.Props.C82_missing_file",
    "Verif.Props.C82_unreadable",
    "Verif.Props.C82_unknown_text",
    "Verif.Props.C82_no_edition",
    "Verif.Props.C82_refused",
    "Verif.Props.C82_scheme",
    "Verif.Props.C82_no_scheme",
    "Verif.Props.C82_library",
    "Verif.Props.C82_end_to_end",
    "Verif.Props.C82_fails_one_step",
    "Verif.Props.C82_fails_hyphen",
    "Verif.Props.C82_fails_empty_subreference",
    "Verif.Props.C82_fails_missing_file",
    "Verif.Props.C82_fails_whole_siblings",
    "Verif.Props.C82_fails_hash"
   ],
   "note": "Departures: identifiers with a hash are cut (C82_fails_hash), so the theorems need identifiers that fit into a URN; a described text without file stays in the inventory and raises AttributeError (C82_fails_missing_file); schemes of one step or with a hyphen reach the inventory damaged (C82_fails_one_step, C82_fails_hyphen); the empty subreference (C82_fails_empty_subreference, C82_fails_whole_siblings)."
  },
  {
   "property": "C83",
   "status": "proved",
   "theorems": [
    "Verif.Props.C83_inventory",
    "Verif.Props.C83_textgroup",
    "Verif.Props.C83_work",
    "Verif.Props.C83_text",
    "Verif.Props.C83_value",
    "Verif.Props.C83_same",
    "Verif.Props.C83_reading",
    "Verif.Props.C83_reading_no_namespace",
    "Verif.Props.C83_fails_datatype",
    "Verif.Props.C83_fails_link_literal",
    "Verif.Props.C83_fails_other_uri",
    "Verif.Props.C83_fails_number_text",
    "Verif.Props.C83_fails_inventory"
   ],
   "note": "Departures: types of literals are written as rdf:type and read as rdf:datatype, hence lost (C83_fails_datatype); literals that look like links become resources (C83_fails_link_literal); resources of other schemes become literals (C83_fails_other_uri); texts that lxml takes for numbers change (C83_fails_number_text); the metadata of the inventory itself are written and not read (C83_fails_inventory). rdflib's qualified names and lxml.objectify are parameters."
  },
  {
   "property": "C84",
   "status": "proved",
   "theorems": [
    "Verif.Props.C84_reply",
    "Verif.Props.C84_labels",
    "Verif.Props.C84_getters",
    "Verif.Props.C84_title",
    "Verif.Props.C84_scheme",
    "Verif.Props.C84_getLabel",
    "Verif.Props.C84_validReff",
    "Verif.Props.C84_reffs",
    "Verif.Props.C84_reffs_unknown",
    "Verif.Props.C84_reffs_error",
    "Verif.Props.C84_node_navigation",
    "Verif.Props.C84_node",
    "Verif.Props.C84_plus_navigation",
    "Verif.Props.C84_plus",
    "Verif.Props.C84_fails_forgets",
    "Verif.Props.C84_fails_no_scheme",
    "Verif.Props.C84_fails_forgets_case",
    "Verif.Props.C84_fails_language",
    "Verif.Props.C84_fails_empty_element",
    "Verif.Props.C84_fails_elsewhere"
   ],
   "note": "Departures: the language of labels is ignored and always English (C84_fails_language); an empty element is kept as the text None (C84_fails_empty_element); a scheme elsewhere in the reply makes reading the label raise TypeError (C84_fails_elsewhere); getPassagePlus makes a text forget its scheme when the reply has none (C84_fails_forgets); without a scheme in the label only the first level is asked for (C84_fails_no_scheme)."
  },
  {
   "property": "C85",
   "status": "proved",
   "theorems": [
    "Verif.Props.C85_request",
    "Verif.Props.C85_inventory",
    "Verif.Props.C85_object",
    "Verif.Props.C85_unique",
    "Verif.Props.C85_errors",
    "Verif.Props.C85_reply",
    "Verif.Props.C85_capabilities",
    "Verif.Props.C85_exported",
    "Verif.Props.C85_fails_name"
   ],
   "note": "Departures: an inventory whose name is the identifier asked for is the answer, even when an object of it has that identifier (C85_fails_name); an empty identifier is sent and then ignored (C85_inventory)."
  },
  {
   "property": "C86",
   "status": "proved",
   "theorems": [
    "Verif.Props.C86_statements",
    "Verif.Props.C86_objects",
    "Verif.Props.C86_others",
    "Verif.Props.C86_textgroup",
    "Verif.Props.C86_work",
    "Verif.Props.C86_order",
    "Verif.Props.C86_type",
    "Verif.Props.C86_language",
    "Verif.Props.C86_label",
    "Verif.Props.C86_graph_irrelevant",
    "Verif.Props.C86_same",
    "Verif.Props.C86_again",
    "Verif.Props.C86_fails_language_leak",
    "Verif.Props.C86_fails_again",
    "Verif.Props.C86_fails_duplicate",
    "Verif.Props.C86_fails_correction"
   ],
   "note": "Departures: a text without language gets the one that an earlier document gave to its work (C86_fails_language_leak); a language in the structured metadata of a work reaches its texts only at the second reading (C86_fails_again); two elements with one identifier share class, language and labels (C86_fails_duplicate); a corrected inventory leaves the former names (C86_fails_correction)."
  },
  {
   "property": "C87",
   "status": "proved",
   "theorems": [
    "Verif.Props.C87_history",
    "Verif.Props.C87_from_scope_xpath",
    "Verif.Props.C87_from_refsDecl",
    "Verif.Props.C87_scope",
    "Verif.Props.C87_xpath",
    "Verif.Props.C87_commute",
    "Verif.Props.C87_fails_unset",
    "Verif.Props.C87_fails_alone",
    "Verif.Props.C87_fails_order",
    "Verif.Props.C87_fails_raises"
   ],
   "note": "Departures: on a citation without refsDecl assignments of scope and xpath are lost (C87_fails_unset), and so is an xpath given without scope (C87_fails_alone); with an xpath of several steps the order matters (C87_fails_order); an assignment raises when the refsDecl has no step (C87_fails_raises)."
  },
  {
   "property": "C88",
   "status": "proved",
   "theorems": [
    "Verif.Props.C88_reffs",
    "Verif.Props.C88_units",
    "Verif.Props.C88_nodup",
    "Verif.Props.C88_parent_first",
    "Verif.Props.C88_retrievable",
    "Verif.Props.C88_remembered",
    "Verif.Props.C88_retry",
    "Verif.Props.C88_fails_empty_level",
    "Verif.Props.C88_fails_stale"
   ],
   "note": "Departures: a declared level without elements makes the whole list a KeyError (C88_fails_empty_level); another citation scheme does not change the remembered list (C88_fails_stale)."
  },
  {
   "property": "C89",
   "status": "proved",
   "theorems": [
    "Verif.Props.C89_address",
    "Verif.Props.C89_below",
    "Verif.Props.C89_query_only",
    "Verif.Props.C89_parameters",
    "Verif.Props.C89_routes",
    "Verif.Props.C89_request",
    "Verif.Props.C89_fails_host",
    "Verif.Props.C89_fails_shapes",
    "Verif.Props.C89_other_addresses"
   ],
   "note": "Departures: the scheme and host that the entry point gives are dropped, so a route on another host is asked for on the host of the endpoint (C89_fails_host); parameters after a semicolon are lost, a path with two slashes at its start is taken for a host, empty segments are squeezed (C89_fails_shapes)."
  },
  {
   "property": "C90",
   "status": "proved",
   "theorems": [
    "Verif.Props.C90_bad_file",
    "Verif.Props.C90_all_read",
    "Verif.Props.C90_default_resolver",
    "Verif.Props.C90_given",
    "Verif.Props.C90_refused",
    "Verif.Props.C90_fails_not_passed_over"
   ],
   "note": "Departure: RAISE_ON_GENERIC_PARSING_ERROR switched off does not pass over a file that cannot be read; parsing stops with TypeError, because the wrapper returns None, which is then taken apart (C90_fails_not_passed_over)."
  },
  {
   "property": "C91",
   "status": "proved",
   "theorems": [
    "Verif.Props.C91_description_subject",
    "Verif.Props.C91_after_calls",
    "Verif.Props.C91_resource",
    "Verif.Props.C91_methods",
    "Verif.Props.C91_fails_creator_title"
   ],
   "note": "Departure: get_creator and get_title of a text always raise AttributeError, because the metadata they ask have no get_label (C91_fails_creator_title)."
  },
  {
   "property": "C92",
   "status": "proved",
   "theorems": [
    "Verif.Props.C92_equality",
    "Verif.Props.C92_equivalence",
    "Verif.Props.C92_after_assignments",
    "Verif.Props.C92_fails_inventories"
   ],
   "note": "Departure: any two inventories of one class are equal, because inventories have no URN (C92_fails_inventories)."
  },
  {
   "property": "C93",
   "status": "proved",
   "theorems": [
    "Verif.Props.C93_text",
    "Verif.Props.C93_passages",
    "Verif.Props.C93_simple",
    "Verif.Props.C93_assignments",
    "Verif.Props.C93_statement",
    "Verif.Props.C93_fails_without_version",
    "Verif.Props.C93_fails_without_urn",
    "Verif.Props.C93_fails_identifier_stays"
   ],
   "note": "Departures: a text whose URN has no version gives no passage but KeyError (C93_fails_without_version); without URN everything is called None (C93_fails_without_urn); an assignment of a URN leaves the identifier (C93_fails_identifier_stays)."
  },
  {
   "property": "C94",
   "status": "proved",
   "theorems": [
    "Verif.Props.C94_xml",
    "Verif.Props.C94_dts",
    "Verif.Props.C94_fails_formats"
   ],
   "note": "Departures: the CapiTainS format is announced and gives None, an empty collection raises IndexError in DTS, the RDF formats raise AttributeError (C94_fails_formats)."
  },
  {
   "property": "C95",
   "status": "proved",
   "theorems": [
    "Verif.Props.C95_forward",
    "Verif.Props.C95_backward",
    "Verif.Props.C95_text_complete",
    "Verif.Props.C95_range_is_its_units",
    "Verif.Props.C95_chunks",
    "Verif.Props.C95_chunks_text_complete",
    "Verif.Props.C95_levels",
    "Verif.Props.C95_fails_with_one_left",
    "Verif.Props.C95_fails_with_empty_unit"
   ],
   "note": "Departures: when one unit is left for the last range, reading ends with CitationDepthError (C95_fails_with_one_left); a unit with nothing under it makes listing level by level raise KeyError (C95_fails_with_empty_unit)."
  },
  {
   "property": "C96",
   "status": "proved",
   "theorems": [
    "Verif.Props.C96_textgroup",
    "Verif.Props.C96_values",
    "Verif.Props.C96_rest_untouched",
    "Verif.Props.C96_nothing_shared",
    "Verif.Props.C96_copies_say",
    "Verif.Props.C96_old_say",
    "Verif.Props.C96_own_graphs",
    "Verif.Props.C96_textgroup_refuses",
    "Verif.Props.C96_not_a_work",
    "Verif.Props.C96_parent",
    "Verif.Props.C96_work",
    "Verif.Props.C96_copy",
    "Verif.Props.C96_fails_work_update"
   ],
   "note": "Textgroups are taken to share no work before. Departures: after merging works, texts of the other work have another parent (C96_fails_work_update); works that come in keep a graph of their own, so the metadata of a merged collection is not in one graph (C96_own_graphs). Merging a textgroup when the entry found is not a work fails (C96_not_a_work)."
  },
  {
   "property": "C97",
   "status": "proved",
   "theorems": [
    "Verif.Props.C97_naming",
    "Verif.Props.C97_naming_any",
    "Verif.Props.C97_fails_naming_from_passage",
    "Verif.Props.C97_same_node",
    "Verif.Props.C97_lists",
    "Verif.Props.C97_lists_inside",
    "Verif.Props.C97_fails_relative_level",
    "Verif.Props.C97_passage",
    "Verif.Props.C97_siblings",
    "Verif.Props.C97_children",
    "Verif.Props.C97_reading",
    "Verif.Props.C97_serves",
    "Verif.Props.C97_moves",
    "Verif.Props.C97_fails_envelope",
    "Verif.Props.C97_whole_text",
    "Verif.Props.C97_nested",
    "Verif.Props.C97_fails_nested_passage",
    "Verif.Props.C97_fails_nested_without_scheme"
   ],
   "note": "What it is to serve a document is Spec/Serving.ServesDocument; servedBy in Props/Serving is an endpoint that does. Departures: from a passage, references given as objects or lists are written after the passage (C97_fails_naming_from_passage); levels of getReffs are absolute with a subreference (C97_fails_relative_level); nested dictionaries of passages ask below the deepest level (C97_fails_nested_passage) and those of texts stop at the first level when no scheme is declared (C97_fails_nested_without_scheme); a level without units is an empty list, not a KeyError (C97_lists)."
  },
  {
   "property": "C98",
   "status": "proved",
   "theorems": [
    "Verif.Props.C98_node",
    "Verif.Props.C98_whole",
    "Verif.Props.C98_siblings",
    "Verif.Props.C98_lists",
    "Verif.Props.C98_programs",
    "Verif.Props.C98_same_resolver",
    "Verif.Props.C98_fails_level_of_passage",
    "Verif.Props.C98_fails_level_minus_one",
    "Verif.Props.C98_fails_empty_reference"
   ],
   "note": "Programs are Spec/Resolvers.Client, those that find their way are Guided. Not observed: the metadata that the local resolver copies to a passage when asked for (C80). Departures: a level that is not below the reference (C98_fails_level_of_passage), level -1 (C98_fails_level_minus_one), the empty reference (C98_fails_empty_reference). The example beside the theorems is a text that is in a folder and at an endpoint, with two programs that read it."
  },
  {
   "property": "C99",
   "status": "proved",
   "theorems": [
    "Verif.Props.C99_lookup",
    "Verif.Props.C99_absent",
    "Verif.Props.C99_texts",
    "Verif.Props.C99_rest",
    "Verif.Props.C99_shelf",
    "Verif.Props.C99_objects",
    "Verif.Props.C99_undispatched",
    "Verif.Props.C99_parse",
    "Verif.Props.C99_seen",
    "Verif.Props.C99_fails_works"
   ],
   "note": "The library, the textgroups that wait and what is in it are in Spec/Dispatching. C99_seen says the same of the values that C44 speaks of. Filters may look at anything but change nothing; for sequences they look at the textgroup only (Steady). Departure: C99_fails_works. The example beside the theorems is a library of two inventories that takes in two textgroups, one of which it has."
  },
  {
   "property": "C100",
   "status": "proved",
   "theorems": [
    "Verif.Props.C100_lists",
    "Verif.Props.C100_passage",
    "Verif.Props.C100_whole",
    "Verif.Props.C100_children",
    "Verif.Props.C100_reading",
    "Verif.Props.C100_backward",
    "Verif.Props.C100_text_complete",
    "Verif.Props.C100_listed",
    "Verif.Props.C100_fails_single",
    "Verif.Props.C100_fails_nested",
    "Verif.Props.C100_nested_name"
   ],
   "note": "What an endpoint that serves a document answers is in Spec/DtsReading (ServesDts), in terms of the units of the document; Wraps allows for an envelope around passages. The local side is the text of C29, C31, C33 and C95. Lists of one reference are left out of C100_lists, C100_listed and C100_children and are the subject of C100_fails_single. C100_fails_nested is for all documents and lists. The examples run an endpoint with lists of two pages and passages in dts:fragment; that it meets ServesDts is proved."
  },
  {
   "property": "C101",
   "status": "proved",
   "theorems": [
    "Verif.Props.C101_browsing",
    "Verif.Props.C101_member",
    "Verif.Props.C101_failures",
    "Verif.Props.C101_fails_nested",
    "Verif.Props.C101_fails_zero",
    "Verif.Props.C101_fails_replaced",
    "Verif.Props.C101_fails_parents"
   ],
   "note": "The hierarchy is Spec/DtsBrowse.Shelf and what an endpoint must answer to offer it is Offers; the readings are BrowseOp and what they must show is Shelf.answer. Objects are trees of values, one object for each place, with the requests of the shared retriever threaded through. The two bounds are for the pages of one listing and for the depth: from some bound on, which depends on the hierarchy only, all readings end. Descendants are seen by identifier and readability; the objects of the members are in C101_member. The departures are theorems for all endpoints that show them. C101_failures is about endpoints that at times fail and otherwise answer as before, a different one for each reading; an error is allowed only when it is one of the endpoint for a request that is answered at other times."
  },
  {
   "property": "C102",
   "status": "proved",
   "theorems": [
    "Verif.Props.C102_list",
    "Verif.Props.C102_passage",
    "Verif.Props.C102_siblings",
    "Verif.Props.C102_reading",
    "Verif.Props.C102_listed",
    "Verif.Props.C102_children",
    "Verif.Props.C102_harvest",
    "Verif.Props.C102_harvest_failing"
   ],
   "note": "Falters says that an endpoint answers as another one but for requests that fail; StopsAtFailure says that what is done goes the same way, or the same way up to the first failing request. Which requests fail is a function of the request: as no reader here asks the same twice, this covers failures that come and go. The first theorems have no hypotheses about what the endpoint serves. C102_harvest composes C101 and C100; its hypotheses are theirs. A level with one unit is left to C100_fails_single."
  },
  {
   "property": "C103",
   "status": "proved",
   "theorems": [
    "Verif.Props.C103_history",
    "Verif.Props.C103_remembered",
    "Verif.Props.C103_persistence",
    "Verif.Props.C103_children",
    "Verif.Props.C103_first"
   ],
   "note": "AtTimes says that an endpoint, as it is at some time, answers as it should or fails; session gives every reading an endpoint of its own, so that failures come and go between readings (within one reading the endpoint is the same). C103_remembered has no hypothesis about what the endpoints say. Departure: siblings that the endpoint does not announce are asked for at every reading (C62_never_announced), which is why such answers are excepted there; the last child without children is an IndexError (C103_children)."
  },
  {
   "property": "C104",
   "status": "proved",
   "theorems": [
    "Verif.Props.C104_history",
    "Verif.Props.C104_graph",
    "Verif.Props.C104_scheme_kept",
    "Verif.Props.C104_fails_deepest"
   ],
   "note": "OneScheme is what is asked of the endpoint: it answers GetLabel with the scheme, no reply declares another one, and a reply that declares it does so in the element that is read (otherwise TypeError, C84_fails_elsewhere). history_scheme shows an endpoint of this kind. Passages that are given are compared without the log of requests and without the name of their blank node, which depend on the history by design. Departure: the references at the deepest level (level -1) depend on whether the label was read before (C104_fails_deepest), and a passage with its label makes a text forget its scheme (C84_fails_forgets), so that it is asked for again."
  },
  {
   "property": "C105",
   "status": "proved",
   "theorems": [
    "Verif.Props.C105_decode",
    "Verif.Props.C105_quote",
    "Verif.Props.C105_injective",
    "Verif.Props.C105_link",
    "Verif.Props.C105_reading",
    "Verif.Props.C105_opens",
    "Verif.Props.C105_routes",
    "Verif.Props.C105_pages",
    "Verif.Props.C105_fails_plus",
    "Verif.Props.C105_fails_hash",
    "Verif.Props.C105_fails_latin"
   ],
   "note": "Quotes says what the coding allows, independently of the decoder; C105_quote instantiates it with quote_plus for every text. UTF-8 itself is that of Lean's library (String.utf8EncodeChar, ByteArray.utf8DecodeChar?). A link of pages must have another parameter before (C61_first_parameter) and no fragment. Departures, all on addresses that a server did not code: C105_fails_plus, C105_fails_hash, C105_fails_latin."
  },
  {
   "property": "C106",
   "status": "proved",
   "theorems": [
    "Verif.Props.C106_statements",
    "Verif.Props.C106_languages",
    "Verif.Props.C106_history",
    "Verif.Props.C106_answers",
    "Verif.Props.C106_still",
    "Verif.Props.C106_speaks",
    "Verif.Props.C106_fails_language",
    "Verif.Props.C106_fails_made_up"
   ],
   "note": "LibraryIn is what reading inventories makes (exAsked_library is such a graph, made by the model of the parser), and is kept by every call. Departures: C106_fails_language (a question that is answered with an error changes which texts a search by language finds), C106_fails_made_up."
  },
  {
   "property": "C107",
   "status": "proved",
   "theorems": [
    "Verif.Props.C107_changes",
    "Verif.Props.C107_history",
    "Verif.Props.C107_fresh",
    "Verif.Props.C107_steady",
    "Verif.Props.C107_text",
    "Verif.Props.C107_simple",
    "Verif.Props.C107_fails_assigned",
    "Verif.Props.C107_fails_gone"
   ],
   "note": "The citation scheme of a text does not change, only its document. C107_fresh ties the answers of an object without memory to the definitions that C32, C33, C64 and C65 are about. Departures: C107_fails_assigned (assigning a reference to a simple passage leaves its memory and its depth), C107_fails_gone."
  },
  {
   "property": "C108",
   "status": "proved",
   "theorems": [
    "Verif.Props.C108_made",
    "Verif.Props.C108_reply",
    "Verif.Props.C108_history",
    "Verif.Props.C108_other_files",
    "Verif.Props.C108_last_written",
    "Verif.Props.C108_end_to_end",
    "Verif.Props.C108_fails_metadata",
    "Verif.Props.C108_fails_filter"
   ],
   "note": "C108_made, C108_reply and C108_history need no assumption about the inventory; the filters of the dispatcher must not look at citation schemes (C108_fails_filter shows why). A file changes between calls, not during one. Departure: C108_fails_metadata (the schemes, and so what getMetadata finds, stay those of the time when the resolver was made)."
  },
  {
   "property": "C109",
   "status": "proved",
   "theorems": [
    "Verif.Props.C109_passage",
    "Verif.Props.C109_others",
    "Verif.Props.C109_document",
    "Verif.Props.C109_history",
    "Verif.Props.C109_text",
    "Verif.Props.C109_units",
    "Verif.Props.C109_fails_simple"
   ],
   "note": "copyNode and passageLoop with elements as objects that change in place and move when appended; what lxml does for Element, append and copy is part of the model. The values are those of passageTree, which C27, C28 and C31 are about. Departure: C109_fails_simple (a simple passage is an element of the document itself)."
  },
  {
   "property": "C110",
   "status": "proved",
   "theorems": [
    "Verif.Props.C110_reffs",
    "Verif.Props.C110_reffs_below",
    "Verif.Props.C110_textual_node",
    "Verif.Props.C110_units_retrievable",
    "Verif.Props.C110_text_range",
    "Verif.Props.C110_single_passage",
    "Verif.Props.C110_range",
    "Verif.Props.C110_comments_taken_out",
    "Verif.Props.C110_no_comments",
    "Verif.Props.C110_text",
    "Verif.Props.C110_plaintext",
    "Verif.Props.C110_units",
    "Verif.Props.C110_fails_range",
    "Verif.Props.C110_fails_plaintext"
   ],
   "note": "passageLoop on documents with comments; a comment is a child whose tag is not a name, so that copyNode raises TypeError for it (lxml's SubElement), and which no step that names an element or tests an attribute selects. Departures: C110_fails_range (a comment between two lines makes the range fail), C110_fails_plaintext (a comment inside a word puts a space into it)."
  },
  {
   "property": "C111",
   "status": "proved",
   "theorems": [
    "Verif.Props.C111_place",
    "Verif.Props.C111_objects_stay",
    "Verif.Props.C111_collection_node",
    "Verif.Props.C111_graph",
    "Verif.Props.C111_get",
    "Verif.Props.C111_apart",
    "Verif.Props.C111_type",
    "Verif.Props.C111_model",
    "Verif.Props.C111_assigned",
    "Verif.Props.C111_said",
    "Verif.Props.C111_own_node",
    "Verif.Props.C111_undisturbed",
    "Verif.Props.C111_fails_same_identifier",
    "Verif.Props.C111_fails_getOr",
    "Verif.Props.C111_fails_emptied"
   ],
   "note": "set_graph/get_graph with objects that take the graph in force when they are made; each graph holds what the program said in it (C111_graph), so the theorems on one graph (C48-C50) apply to each. C111_own_node and C111_undisturbed suppose that the program does not hand blank nodes around itself (C111_fails_getOr shows how it could) and, for the second, that it calls no unlink. Departures: C111_fails_same_identifier, C111_fails_getOr, C111_fails_emptied."
  },
  {
   "property": "C112",
   "status": "proved",
   "theorems": [
    "Verif.Props.C112_cts",
    "Verif.Props.C112_cts_form",
    "Verif.Props.C112_cts_made",
    "Verif.Props.C112_cts_singles",
    "Verif.Props.C112_set",
    "Verif.Props.C112_cts_set",
    "Verif.Props.C112_usable",
    "Verif.Props.C112_made",
    "Verif.Props.C112_fails_dts",
    "Verif.Props.C112_fails_dts_set"
   ],
   "note": "Copying calls __new__ with the tuple of the object and restores its __dict__, as Python does for subclasses of tuple. C112_usable says for each class whether a copy is usable. Departures: C112_fails_dts, C112_fails_dts_set (references of the base class and of DTS lose their end)."
  },
  {
   "property": "C113",
   "status": "proved",
   "theorems": [
    "Verif.Props.C113_who",
    "Verif.Props.C113_no_hash",
    "Verif.Props.C113_equal",
    "Verif.Props.C113_references",
    "Verif.Props.C113_hash",
    "Verif.Props.C113_equivalence",
    "Verif.Props.C113_lookup",
    "Verif.Props.C113_found",
    "Verif.Props.C113_others",
    "Verif.Props.C113_set",
    "Verif.Props.C113_set_length",
    "Verif.Props.C113_dts",
    "Verif.Props.C113_delete",
    "Verif.Props.C113_fails_unhashable",
    "Verif.Props.C113_fails_symmetric"
   ],
   "note": "Equality by Python's rule of who is asked first, hashes for any hash function, and dict as entries with hashes. Departures: C113_fails_unhashable (DTS references, URNs and CTS collections define __eq__ without __hash__), C113_fails_symmetric (CtsReference == DtsReference is not symmetric)."
  },
  {
   "property": "C114",
   "status": "proved",
   "theorems": [
    "Verif.Props.C114_routes",
    "Verif.Props.C114_routes_later",
    "Verif.Props.C114_fails_once",
    "Verif.Props.C114_siblings",
    "Verif.Props.C114_siblings_later",
    "Verif.Props.C114_members",
    "Verif.Props.C114_members_requests",
    "Verif.Props.C114_members_end",
    "Verif.Props.C114_members_later",
    "Verif.Props.C114_members_all",
    "Verif.Props.C114_fails_flag",
    "Verif.Props.C114_fails_swap"
   ],
   "note": "Small steps: each access to shared state and each request is one step of a thread; a schedule picks threads and says which requests are answered. Departures: C114_fails_once (each thread may request the entry point), C114_fails_flag (a listing of one page without view is called parsed before its members are there, and another thread finds none), C114_fails_swap (AttributeError between the look at the proxy and the reading of it)."
  },
  {
   "property": "C115",
   "status": "proved",
   "theorems": [
    "Verif.Props.C115_order",
    "Verif.Props.C115_complete",
    "Verif.Props.C115_apart",
    "Verif.Props.C115_ids_once",
    "Verif.Props.C115_fails_after_error"
   ],
   "note": "Departure C115_fails_after_error: a generator that has met an error is finished, and a loop that goes on with it sees an end as if there were no more children."
  },
  {
   "property": "C116",
   "status": "proved",
   "theorems": [
    "Verif.Props.C116_deep",
    "Verif.Props.C116_untouched",
    "Verif.Props.C116_apart",
    "Verif.Props.C116_ends",
    "Verif.Props.C116_iter",
    "Verif.Props.C116_match",
    "Verif.Props.C116_levels",
    "Verif.Props.C116_level",
    "Verif.Props.C116_original",
    "Verif.Props.C116_plain",
    "Verif.Props.C116_fails_plain"
   ],
   "note": "Departure C116_fails_plain: the children of a plain copy of a root have the original as their root."
  },
  {
   "property": "C117",
   "status": "proved",
   "theorems": [
    "Verif.Props.C117_apart",
    "Verif.Props.C117_begins",
    "Verif.Props.C117_copy",
    "Verif.Props.C117_reads",
    "Verif.Props.C117_fails_plain"
   ],
   "note": "Departure C117_fails_plain: copy.copy shares the dictionary of components; an assignment to the copy changes the components of the original, whose text stays the old one."
  },
  {
   "property": "C118",
   "status": "proved",
   "theorems": [
    "Verif.Props.C118_stays",
    "Verif.Props.C118_begins",
    "Verif.Props.C118_made",
    "Verif.Props.C118_change",
    "Verif.Props.C118_fails_whole",
    "Verif.Props.C118_fails_given"
   ],
   "note": "Departures: C118_fails_whole (all of a text asked for simply has the URN object of the text), C118_fails_given (texts made from one URN object have it in common)."
  }
 ]
}
