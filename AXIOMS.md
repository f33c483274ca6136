# Axioms per theorem

Written from `#print axioms` for every property theorem in `lean/Verif/Props`.

## Axioms: Classical.choice, Quot.sound, propext

* C03_depth_fails_with_dotted_subreference
* C06_no_parent
* C06_parent_range
* C08_fails_for_empty_parts
* C09_index_first
* C100_backward
* C100_children
* C100_fails_nested
* C100_fails_single
* C100_listed
* C100_lists
* C100_nested_name
* C100_passage
* C100_reading
* C100_text_complete
* C100_whole
* C101_browsing
* C101_fails_parents
* C101_fails_replaced
* C101_failures
* C101_member
* C102_harvest
* C102_harvest_failing
* C103_children
* C103_first
* C103_persistence
* C104_fails_deepest
* C104_graph
* C104_history
* C104_scheme_kept
* C105_decode
* C105_fails_hash
* C105_fails_latin
* C105_fails_plus
* C105_injective
* C105_link
* C105_opens
* C105_pages
* C105_quote
* C105_reading
* C105_routes
* C106_answers
* C106_fails_language
* C106_fails_made_up
* C106_history
* C106_languages
* C106_speaks
* C106_statements
* C106_still
* C107_changes
* C107_fails_assigned
* C107_fails_gone
* C107_fresh
* C107_history
* C107_simple
* C107_steady
* C107_text
* C108_end_to_end
* C108_fails_filter
* C108_fails_metadata
* C108_history
* C108_last_written
* C108_made
* C108_other_files
* C108_reply
* C109_fails_simple
* C109_text
* C109_units
* C110_comments_taken_out
* C110_fails_plaintext
* C110_fails_range
* C110_no_comments
* C110_plaintext
* C110_range
* C110_reffs
* C110_reffs_below
* C110_single_passage
* C110_text
* C110_text_range
* C110_textual_node
* C110_units
* C110_units_retrievable
* C111_apart
* C111_get
* C111_graph
* C111_model
* C111_said
* C111_type
* C113_delete
* C113_found
* C113_lookup
* C113_others
* C113_set
* C113_set_length
* C114_fails_flag
* C114_fails_once
* C114_fails_swap
* C114_members
* C114_members_all
* C114_members_end
* C114_members_later
* C114_members_requests
* C114_routes_later
* C114_siblings_later
* C115_apart
* C115_ids_once
* C116_apart
* C116_deep
* C116_ends
* C116_iter
* C116_match
* C116_original
* C116_untouched
* C118_fails_given
* C11_urn_acceptance
* C13_failed_assignment_changes_text
* C14_surplus_parts_lost
* C16_equality
* C16_equivalence
* C17_passage_without_work_lost
* C20_no_placeholder_left
* C20_pieces
* C20_placeholders_numbered
* C21_fails_with_dash
* C21_fails_with_long_xpath
* C21_no_step
* C21_read
* C21_scope_xpath_round_trip
* C21_step_characters
* C21_write_back
* C22_fill_list
* C22_fill_none
* C22_fill_reference
* C22_fill_xpath
* C22_numbers_ignored
* C22_numeric_constant_consumed
* C22_raises_iff
* C23_depth
* C23_index
* C23_level_members
* C23_levels_partition
* C23_negative_index_of_citation_shifted
* C26_leading_descendant_lost
* C27_chain_is_cut
* C27_descendant_prefers_child
* C27_first_in_document_order
* C27_selection
* C27_single_passage
* C28_end_contains_start
* C28_fails_with_equal_texts
* C28_objectify_tells_apart
* C28_range
* C28_range_of_text
* C28_reversed_not_rejected
* C28_start_contains_end
* C29_child_steps_separate
* C29_document_order
* C29_fails_with_hyphen
* C29_lists_units
* C29_lists_units_under
* C29_names
* C29_no_duplicates
* C29_unit_iff
* C30_default_level
* C30_level_below_passage
* C30_level_zero
* C30_range_end_above_start
* C30_range_level
* C30_range_level_zero
* C31_duplicates_hide
* C31_fails_with_quote
* C31_fails_with_slash
* C31_listed_retrievable
* C31_too_deep
* C31_units_retrievable
* C31_unknown_reference
* C32_fails_with_subreference
* C32_siblings
* C32_simple_siblings
* C33_clipped_to_one_unit
* C33_mixed_levels
* C33_range_siblings
* C33_simple_range_next_inside
* C34_range
* C34_single
* C35_empty_separator
* C35_excluded_itself
* C35_markup_splits_words
* C35_nothing_lost
* C35_only_document_text
* C35_passage_text
* C35_plain_text
* C35_range_text
* C35_simple_passage
* C35_simple_range_is_start
* C36_empty_text
* C36_entries
* C36_nested_dictionary
* C37_contains
* C37_exists
* C37_unknown
* C38_once_per_path
* C38_succeeds
* C39_agree
* C39_graph
* C40_container_metadata_lost
* C40_delete
* C40_own_identifier
* C41_textgroup
* C42_length
* C43_dispatch
* C44_dispatch_all
* C44_no_invention
* C44_parse
* C44_second_description_lost
* C45_filters
* C46_all_pages
* C46_default_page
* C46_empty_list
* C46_page
* C46_page_after_full_last_page
* C46_past_the_end
* C47_other_work
* C47_version
* C47_work
* C48_set_get
* C49_fails_with_link
* C49_single
* C49_single_any
* C50_getOr
* C51_not_implemented
* C52_all_ascendants
* C52_all_descendants
* C52_both_ways
* C52_fails_with_same_string
* C52_limit_depends_on_order
* C52_limited_ascendants
* C52_limited_descendants
* C52_only_source
* C52_terminates
* C53_expand
* C53_fails_on_second_occurrence
* C54_idempotent
* C54_no_adjacent_spaces
* C54_other_characters
* C54_runs_become_one
* C54_unchanged
* C54_words
* C55_get
* C55_get_missing
* C55_set_elsewhere
* C55_set_get
* C55_set_then_value
* C56_fails_with_quote_in_attribute
* C56_no_markup
* C56_node_reads_back
* C56_unescape
* C57_call
* C57_fails_siblings_of_text
* C57_passage
* C57_reffs
* C57_reffs_range
* C57_reffs_text
* C57_requests
* C57_siblings
* C58_call
* C58_collection
* C58_document
* C58_navigation
* C58_never_both
* C58_tuple
* C59_chain
* C59_endless
* C59_once
* C59_only_chains
* C59_request
* C59_single
* C60_children
* C60_fails_link
* C60_parents
* C60_parents_first
* C60_request
* C60_requests
* C61_first_parameter
* C61_pages
* C62_announced
* C62_asked_once
* C62_children
* C62_first
* C63_attribute_of_last_test
* C63_fails_with_digit_in_name
* C63_no_test
* C64_child_belongs_to_text_partial
* C64_fails_on_edition
* C64_next_has_no_siblings
* C65_children
* C65_first_last
* C65_no_children_raises
* C66_listing_not_empty
* C66_passage_export_never_succeeds
* C66_passage_export_raises
* C67_edition_language
* C67_inventories
* C67_metadata
* C67_namespace
* C69_navigation
* C69_parent_of_top
* C69_requests
* C70_node
* C70_reffs
* C70_siblings
* C71_collection
* C71_fails_edition_language
* C71_fails_empty_text
* C71_fails_no_language
* C71_fails_plain
* C71_fails_quote
* C71_fails_single_step
* C71_fails_undeclared
* C71_fails_undeclared_prefix
* C71_inventory
* C71_stable
* C71_text
* C71_textgroup
* C71_work
* C72_fails_list_grows
* C72_fails_plain_string
* C72_fails_title
* C73_declared
* C73_fails_double_quotes
* C73_fails_no_pattern
* C73_fails_no_replacement
* C73_missing
* C73_round_trip
* C74_base
* C74_fails_type
* C74_keys
* C74_members
* C74_success
* C74_values
* C74_vocabulary
* C75_again
* C75_fails_link
* C75_fails_new_size
* C75_fails_same_member
* C75_graph
* C75_size
* C75_type
* C75_values
* C76_fails_datatype
* C76_fails_label_language
* C76_fails_link
* C76_fails_no_label
* C76_graph
* C76_tree
* C76_type
* C77_collection_once
* C77_depth
* C77_fails_collection_link
* C77_fails_parent
* C77_fails_up
* C77_links
* C77_opens
* C77_request
* C77_walk
* C78_childIds
* C78_children
* C78_fails_level
* C78_fails_single
* C79_fails_empty
* C79_fails_no_language
* C79_fails_two_languages
* C79_fails_two_values
* C79_history
* C79_label
* C79_links
* C79_property
* C79_property_language
* C79_title_is_label
* C80_fails_empty_title
* C80_fails_link
* C80_getters
* C80_graph
* C80_title
* C80_twice
* C81_citations
* C81_equal
* C81_fails_contains
* C81_fails_other
* C81_fails_parsed_twice
* C81_fails_recursion
* C81_fails_unequal
* C81_new
* C81_sets
* C81_type
* C82_end_to_end
* C82_fails_empty_subreference
* C82_fails_hash
* C82_fails_hyphen
* C82_fails_missing_file
* C82_fails_one_step
* C82_fails_whole_siblings
* C82_library
* C82_listed_retrievable
* C82_missing_file
* C82_no_edition
* C82_no_scheme
* C82_range
* C82_range_siblings
* C82_reffs
* C82_reffs_under
* C82_refused
* C82_scheme
* C82_siblings
* C82_unit
* C82_unknown_reference
* C82_unknown_text
* C82_unreadable
* C82_whole
* C82_work_or_text
* C83_fails_datatype
* C83_fails_inventory
* C83_fails_link_literal
* C83_fails_number_text
* C83_fails_other_uri
* C83_inventory
* C83_reading
* C83_reading_no_namespace
* C83_same
* C83_text
* C83_textgroup
* C83_value
* C83_work
* C84_fails_elsewhere
* C84_fails_empty_element
* C84_fails_forgets
* C84_fails_forgets_case
* C84_fails_language
* C84_fails_no_scheme
* C84_getLabel
* C84_getters
* C84_labels
* C84_node
* C84_node_navigation
* C84_plus
* C84_plus_navigation
* C84_reffs
* C84_reffs_error
* C84_reffs_unknown
* C84_reply
* C84_scheme
* C84_title
* C84_validReff
* C85_capabilities
* C85_errors
* C85_exported
* C85_reply
* C85_request
* C86_again
* C86_fails_again
* C86_fails_correction
* C86_fails_duplicate
* C86_fails_language_leak
* C86_label
* C86_language
* C86_objects
* C86_order
* C86_others
* C86_same
* C86_statements
* C86_textgroup
* C86_type
* C86_work
* C87_commute
* C87_fails_order
* C87_fails_raises
* C87_fails_unset
* C87_from_refsDecl
* C87_from_scope_xpath
* C87_history
* C87_scope
* C87_xpath
* C88_fails_empty_level
* C88_fails_stale
* C88_nodup
* C88_parent_first
* C88_reffs
* C88_remembered
* C88_retrievable
* C88_retry
* C88_units
* C89_address
* C89_below
* C89_fails_host
* C89_fails_shapes
* C89_other_addresses
* C89_parameters
* C89_request
* C89_routes
* C90_all_read
* C90_bad_file
* C90_default_resolver
* C90_fails_not_passed_over
* C90_given
* C91_after_calls
* C91_description_subject
* C91_fails_creator_title
* C91_methods
* C91_resource
* C92_after_assignments
* C92_equality
* C92_equivalence
* C93_fails_identifier_stays
* C93_fails_without_urn
* C93_fails_without_version
* C93_passages
* C93_simple
* C93_statement
* C93_text
* C94_dts
* C94_fails_formats
* C94_xml
* C95_backward
* C95_chunks
* C95_chunks_text_complete
* C95_fails_with_empty_unit
* C95_fails_with_one_left
* C95_forward
* C95_levels
* C95_range_is_its_units
* C95_text_complete
* C96_copies_say
* C96_copy
* C96_fails_work_update
* C96_nothing_shared
* C96_old_say
* C96_own_graphs
* C96_parent
* C96_rest_untouched
* C96_textgroup
* C96_values
* C96_work
* C97_children
* C97_fails_envelope
* C97_fails_nested_passage
* C97_fails_nested_without_scheme
* C97_fails_relative_level
* C97_lists
* C97_lists_inside
* C97_moves
* C97_nested
* C97_passage
* C97_reading
* C97_same_node
* C97_serves
* C97_siblings
* C97_whole_text
* C98_fails_empty_reference
* C98_fails_level_minus_one
* C98_fails_level_of_passage
* C98_lists
* C98_node
* C98_programs
* C98_same_resolver
* C98_siblings
* C98_whole
* C99_absent
* C99_fails_works
* C99_lookup
* C99_objects
* C99_parse
* C99_rest
* C99_seen
* C99_shelf
* C99_texts
* C99_undispatched

## Axioms: Quot.sound, propext

* C01_reference_round_trip
* C02_accepts_rest
* C02_error_iff_two_dashes
* C03_depth_exact
* C03_recompose
* C04_reference
* C04_word_and_counter
* C05_no_parent_at_depth_one
* C05_parent_chain
* C05_parent_single
* C07_highest
* C08_refeed
* C09_malformed
* C09_no_reference
* C101_fails_nested
* C101_fails_zero
* C102_children
* C102_list
* C102_listed
* C102_passage
* C102_reading
* C102_siblings
* C103_history
* C103_remembered
* C109_document
* C109_history
* C109_others
* C109_passage
* C111_assigned
* C111_collection_node
* C111_fails_emptied
* C111_fails_getOr
* C111_fails_same_identifier
* C111_objects_stay
* C111_own_node
* C111_place
* C111_undisturbed
* C112_fails_dts_set
* C112_usable
* C113_fails_unhashable
* C113_hash
* C113_who
* C114_routes
* C114_siblings
* C115_complete
* C115_fails_after_error
* C116_fails_plain
* C116_level
* C116_plain
* C117_apart
* C117_begins
* C117_copy
* C117_fails_plain
* C117_reads
* C118_begins
* C118_fails_whole
* C118_made
* C118_stays
* C12_urn_components
* C13_last_assignment_wins
* C13_str_after_write
* C13_str_before_write
* C14_passage_parts
* C14_upTo_values
* C15_upTo_errors
* C16_length
* C16_length_bounds
* C16_order
* C17_rebuild_parses_back
* C18_index
* C18_last
* C19_match
* C19_match_ingested
* C23_len
* C23_len_of_citation
* C24_fails_on_move
* C24_fails_with_add_child
* C24_ingest
* C24_placed_citation_has_a_root
* C24_roots_lead_to_the_top
* C25_export_ingest
* C25_ingest
* C25_ingest_export
* C25_ingest_without_root
* C27_unknown
* C28_identity_tells_apart
* C28_unknown_end
* C29_listing_exact
* C35_positions
* C37_found
* C38_cycle_fails
* C38_mem_descendants
* C39_children_are_first
* C39_fails_on_move
* C39_parent_is_last
* C40_metadata
* C41_textgroup_refuses
* C41_work
* C41_work_refuses
* C43_choice_unique
* C43_unknown_inventory
* C44_cts_identifiers
* C44_undispatched
* C46_pages_make_list
* C47_refused
* C48_get_after_history
* C48_no_duplicates
* C48_objects_apart
* C49_get_language
* C51_capacities
* C51_default
* C51_no_default
* C51_no_implementation
* C51_runs_first
* C52_blank
* C52_one_level
* C53_unknown_prefix
* C55_set_succeeds
* C57_level_zero
* C57_once
* C59_nothing
* C60_children_once
* C60_no_length
* C60_retrieve_again
* C62_failure
* C62_never_announced
* C68_entry_once
* C69_next_unannounced
* C69_one_retriever
* C69_parent
* C71_same_texts
* C71_text_unchanged
* C72_only_again
* C72_predicates
* C72_success
* C72_values
* C74_citations
* C75_fails_parents
* C75_success
* C75_tree
* C77_collection_kept
* C77_parent
* C77_parent_whole
* C78_first_last
* C78_leaf
* C79_lang
* C79_lang_of_new_text
* C79_translations
* C81_contains
* C85_fails_name
* C85_inventory
* C85_object
* C85_unique
* C86_graph_irrelevant
* C87_fails_alone
* C89_query_only
* C90_refused
* C96_not_a_work
* C97_fails_naming_from_passage
* C97_naming
* C97_naming_any

## Axioms: none

* C112_set
* C36_equal_depth
* C38_readable
* C43_default
* C46_negative_page

## Axioms: propext

* C02_none_iff_empty
* C03_depth_partial
* C03_several_at
* C04_word_only
* C07_highest_single
* C08_constructors_agree
* C09_item_equality
* C10_urn_round_trip
* C10_urn_round_trip_plain
* C112_cts
* C112_cts_form
* C112_cts_made
* C112_cts_set
* C112_cts_singles
* C112_fails_dts
* C112_made
* C113_dts
* C113_equal
* C113_equivalence
* C113_fails_symmetric
* C113_no_hash
* C113_references
* C115_order
* C116_levels
* C118_change
* C14_cuts_nested
* C18_chain_enumeration
* C18_preorder
* C25_empty_type_list
* C25_export
* C26_join
* C26_normalize
* C26_normalize_below_root
* C40_fails_after_move
* C40_unknown
* C44_identifier_clash
* C45_urn_object
* C50_nothing_else
* C50_remove
* C50_unlink
* C73_given
* C74_fails_formats
* C80_citation
* C80_fails_no_citation
* C80_orphan
* C81_equivalence
* C92_fails_inventories
* C93_assignments
* C96_textgroup_refuses
