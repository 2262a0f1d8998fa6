{
 "claims": [
  {
   "property": "C01",
   "status": "proved",
   "theorems": [
    "Semnet.Props.C01_create_story_round_trip"
   ],
   "note": ""
  },
  {
   "property": "C02",
   "status": "proved",
   "theorems": [
    "Semnet.Props.C02_text_never_changes",
    "Semnet.Props.C02_text_as_given"
   ],
   "note": ""
  },
  {
   "property": "C03",
   "status": "proved",
   "theorems": [
    "Semnet.Props.C03_add_remark_keeps_object"
   ],
   "note": ""
  },
  {
   "property": "C04",
   "status": "proved",
   "theorems": [
    "Semnet.Props.C04_add_fact_round_trip"
   ],
   "note": ""
  },
  {
   "property": "C05",
   "status": "proved",
   "theorems": [
    "Semnet.Props.C05_create_child_round_trip"
   ],
   "note": ""
  },
  {
   "property": "C06",
   "status": "proved",
   "theorems": [
    "Semnet.Props.C06_get_remark_inverts_identifier",
    "Semnet.Props.C06_get_remark_after_reopening"
   ],
   "note": ""
  },
  {
   "property": "C07",
   "status": "proved",
   "theorems": [
    "Semnet.Props.C07_identifiers_unique",
    "Semnet.Props.C07_identifiers_above_classes"
   ],
   "note": ""
  },
  {
   "property": "C08",
   "status": "proved",
   "theorems": [
    "Semnet.Props.C08_get_story_prints_opener",
    "Semnet.Props.C08_get_story_of_new_story"
   ],
   "note": ""
  },
  {
   "property": "C09",
   "status": "proved",
   "theorems": [
    "Semnet.Props.C09_get_first_fact_is_opener",
    "Semnet.Props.C09_new_story_is_its_first_fact",
    "Semnet.Props.C09_added_remark_same_first_fact"
   ],
   "note": ""
  },
  {
   "property": "C10",
   "status": "proved",
   "theorems": [
    "Semnet.Props.C10_no_next_remark",
    "Semnet.Props.C10_get_next_remark_fails"
   ],
   "note": ""
  },
  {
   "property": "C11",
   "status": "partial",
   "theorems": [
    "Semnet.Props.C11_empty_object_is_error",
    "Semnet.Props.C11_empty_property_never_stored",
    "Semnet.Props.C11_empty_property_is_error_partial",
    "Semnet.Props.C11_empty_property_can_panic"
   ],
   "note": "Proved for the object (all four creating calls). For the property of AddRemarkToFact the statement is false of the code: C11_empty_property_can_panic is a witness; C11_empty_property_never_stored and C11_empty_property_is_error_partial (single-word object) are what holds."
  },
  {
   "property": "C12",
   "status": "partial",
   "theorems": [
    "Semnet.Props.C12_trailing_space_panics",
    "Semnet.Props.C12_well_formed_text_panics",
    "Semnet.Props.C12_single_words_do_not_panic_partial",
    "Semnet.Props.C12_free_alphabet_does_not_panic_partial",
    "Semnet.Props.C12_panics_exactly",
    "Semnet.Props.C12_empty_words_never_stored"
   ],
   "note": "The full statement is false of the code; witnesses C12_trailing_space_panics and C12_well_formed_text_panics. What holds is proved: no panic for texts without spaces, none for well-formed text over a prefix-free alphabet, and text with an empty word is never stored. C12_panics_exactly gives the exact condition, in terms of the abstract machine of C41."
  },
  {
   "property": "C13",
   "status": "proved",
   "theorems": [
    "Semnet.Props.C13_failed_call_harmless"
   ],
   "note": ""
  },
  {
   "property": "C14",
   "status": "proved",
   "theorems": [
    "Semnet.Props.C14_crash_loses_nothing",
    "Semnet.Props.C14_many_crashes_lose_nothing"
   ],
   "note": "The second theorem, about any number of crashes, is for storages without node 0; the first, about one crash, is for all storages."
  },
  {
   "property": "C15",
   "status": "partial",
   "theorems": [
    "Semnet.Props.C15_success_is_never_wrong",
    "Semnet.Props.C15_faulty_query_is_never_wrong",
    "Semnet.Props.C15_one_faulty_call_partial",
    "Semnet.Props.C15_wrong_success_with_node_zero"
   ],
   "note": "Proved for storages without node 0. False of the code on storages with a node 0 (witness C15_wrong_success_with_node_zero); there C15_one_faulty_call_partial covers the first faulty call."
  },
  {
   "property": "C16",
   "status": "partial",
   "theorems": [
    "Semnet.Props.C16_half_built_pair",
    "Semnet.Props.C16_half_built_bits",
    "Semnet.Props.C16_continue_after_crash_partial"
   ],
   "note": "The full statement is false of the code; witnesses C16_half_built_pair and C16_half_built_bits. Positive part: C16_continue_after_crash_partial (storages without node 0, alphabets in which no word start is a proper prefix of another character)."
  },
  {
   "property": "C17",
   "status": "proved",
   "theorems": [
    "Semnet.Props.C17_queries_never_write",
    "Semnet.Props.C17_dying_queries_never_write",
    "Semnet.Props.C17_get_remark_never_writes",
    "Semnet.Props.C17_after_calm_history",
    "Semnet.Props.C17_after_stormy_history"
   ],
   "note": ""
  },
  {
   "property": "C18",
   "status": "proved",
   "theorems": [
    "Semnet.Props.C18_reader_beside_writer",
    "Semnet.Props.C18_reader_beside_failing_writer",
    "Semnet.Props.C18_writer_undisturbed",
    "Semnet.Props.C18_writer_gets_done"
   ],
   "note": "Storage calls are atomic. Any number of readers; the writer may also fail and be restarted (storages without node 0)."
  },
  {
   "property": "C19",
   "status": "proved",
   "theorems": [
    "Semnet.Props.C19_rune_stored_exactly",
    "Semnet.Props.C19_negative_rune_rejected"
   ],
   "note": ""
  },
  {
   "property": "C20",
   "status": "proved",
   "theorems": [
    "Semnet.Props.C20_invalid_utf8_replaced",
    "Semnet.Props.C20_text_is_determined",
    "Semnet.Props.C20_valid_utf8_unchanged"
   ],
   "note": ""
  },
  {
   "property": "C21",
   "status": "proved",
   "theorems": [
    "Semnet.Props.C21_characters_shared",
    "Semnet.Props.C21_different_runes_differ"
   ],
   "note": ""
  },
  {
   "property": "C22",
   "status": "partial",
   "theorems": [
    "Semnet.Props.C22_not_in_general",
    "Semnet.Props.C22_well_formed_text_accepted_partial",
    "Semnet.Props.C22_same_bit_length_partial",
    "Semnet.Props.C22_letters_partial",
    "Semnet.Props.C22_accepted_exactly"
   ],
   "note": "The full statement is false of the code; witness C22_not_in_general. Proved for every history and input over a prefix-free alphabet, which is the restriction named in the statement. C22_accepted_exactly gives the exact condition for all valid UTF-8 texts, in terms of the abstract machine of C41."
  },
  {
   "property": "C23",
   "status": "proved",
   "theorems": [
    "Semnet.Props.C23_dead_word_start",
    "Semnet.Props.C23_dead_word_start_in_storms"
   ],
   "note": ""
  },
  {
   "property": "C24",
   "status": "proved",
   "theorems": [
    "Semnet.Props.C24_reopening_invisible",
    "Semnet.Props.C24_get_remark_after_reopening",
    "Semnet.Props.C24_calls_after_reopening"
   ],
   "note": ""
  },
  {
   "property": "C25",
   "status": "proved",
   "theorems": [
    "Semnet.Props.C25_initialised_completely",
    "Semnet.Props.C25_same_bits_for_ever",
    "Semnet.Props.C25_same_bits_in_storms"
   ],
   "note": ""
  },
  {
   "property": "C26",
   "status": "proved",
   "theorems": [
    "Semnet.Props.C26_navigation_fails_without_node_zero",
    "Semnet.Props.C26_additions_fail_without_node_zero",
    "Semnet.Props.C26_additions_succeed_with_node_zero"
   ],
   "note": ""
  },
  {
   "property": "C27",
   "status": "proved",
   "theorems": [
    "Semnet.Props.C27_get_next_fact_fails"
   ],
   "note": ""
  },
  {
   "property": "C28",
   "status": "partial",
   "theorems": [
    "Semnet.Props.C28_other_story_changes_has_next_fact",
    "Semnet.Props.C28_has_next_fact_is_global",
    "Semnet.Props.C28_stories_independent_partial"
   ],
   "note": "The full statement is false of the code; witness C28_other_story_changes_has_next_fact, and C28_has_next_fact_is_global for all histories on storages with a node 0. C28_stories_independent_partial covers storages without."
  },
  {
   "property": "C29",
   "status": "proved",
   "theorems": [
    "Semnet.Props.C29_calls_finish",
    "Semnet.Props.C29_calls_finish_under_failures",
    "Semnet.Props.C29_budget_is_immaterial",
    "Semnet.Props.C29_budget_is_immaterial_under_failures"
   ],
   "note": ""
  },
  {
   "property": "C30",
   "status": "proved",
   "theorems": [
    "Semnet.Props.C30_remarks_belong_to_their_class",
    "Semnet.Props.C30_class_survives_storms"
   ],
   "note": ""
  },
  {
   "property": "C31",
   "status": "partial",
   "theorems": [
    "Semnet.Props.C31_equal_text_stored_again",
    "Semnet.Props.C31_no_phrase_shared"
   ],
   "note": "The full statement is false of the code; witness C31_equal_text_stored_again; in general over free alphabets C31_no_phrase_shared (no phrase is ever used twice)."
  },
  {
   "property": "C32",
   "status": "partial",
   "theorems": [
    "Semnet.Props.C32_parallel_edges_unreadable",
    "Semnet.Props.C32_refused_edges_panic",
    "Semnet.Props.C32_ignored_edges_partial",
    "Semnet.Props.C32_one_letter_words_partial",
    "Semnet.Props.C32_one_letter_words_accepted_partial"
   ],
   "note": "The full statement is false of the code; witnesses for the duplicating and the refusing policy. C32_ignored_edges_partial covers all storages that ignore existing edges; C32_one_letter_words_partial / _accepted_partial cover every policy when all words have one character (multi-character words repeat a Connect and are refuted)."
  },
  {
   "property": "C33",
   "status": "partial",
   "theorems": [
    "Semnet.Props.C33_two_writers_destroy_storage",
    "Semnet.Props.C33_two_writers_poison_pair",
    "Semnet.Props.C33_taking_turns_partial"
   ],
   "note": "The full statement is false of the code; witnesses C33_two_writers_destroy_storage and C33_two_writers_poison_pair. C33_taking_turns_partial: any number of processes whose calls do not overlap; C48 is what holds of calls that do."
  },
  {
   "property": "C34",
   "status": "partial",
   "theorems": [
    "Semnet.Props.C34_class_node_accepted",
    "Semnet.Props.C34_what_get_remark_checks",
    "Semnet.Props.C34_unknown_identifier_rejected_partial",
    "Semnet.Props.C34_own_nodes_partial",
    "Semnet.Props.C34_accepted_exactly",
    "Semnet.Props.C34_accepted_node_zero"
   ],
   "note": "The full statement is false of the code; witness C34_class_node_accepted; C34_what_get_remark_checks says what is checked, on any storage; C34_accepted_exactly and C34_accepted_node_zero say exactly which nodes of which entities are accepted, without and with a node 0."
  },
  {
   "property": "C35",
   "status": "proved",
   "theorems": [
    "Semnet.Props.C35_pair_stored_once",
    "Semnet.Props.C35_one_detail_per_pair",
    "Semnet.Props.C35_dropped_error_makes_duplicate"
   ],
   "note": ""
  },
  {
   "property": "C36",
   "status": "proved",
   "theorems": [
    "Semnet.Props.C36_added_fact_has_no_story_text",
    "Semnet.Props.C36_added_fact_has_no_first_fact"
   ],
   "note": ""
  },
  {
   "property": "C37",
   "status": "proved",
   "theorems": [
    "Semnet.Props.C37_next_story_never_reached",
    "Semnet.Props.C37_has_next_story_is_has_next_fact",
    "Semnet.Props.C37_class_nodes_as_next_story"
   ],
   "note": ""
  },
  {
   "property": "C38",
   "status": "proved",
   "theorems": [
    "Semnet.Props.C38_same_remarks",
    "Semnet.Props.C38_same_verdicts",
    "Semnet.Props.C38_same_answers"
   ],
   "note": ""
  },
  {
   "property": "C39",
   "status": "proved",
   "theorems": [
    "Semnet.Props.C39_queries_exact"
   ],
   "note": ""
  },
  {
   "property": "C40",
   "status": "proved",
   "theorems": [
    "Semnet.Props.C40_no_child_after_two_facts",
    "Semnet.Props.C40_one_child_after_a_fact"
   ],
   "note": ""
  },
  {
   "property": "C41",
   "status": "proved",
   "theorems": [
    "Semnet.Props.C41_same_remarks",
    "Semnet.Props.C41_same_verdicts",
    "Semnet.Props.C41_same_answers",
    "Semnet.Props.C41_verdict_exists",
    "Semnet.Props.C41_all_valid_histories",
    "Semnet.Props.C41_storage_independent"
   ],
   "note": "For storages that ignore repeated edges and valid UTF-8 texts; invalid bytes are the subject of C20 and C44."
  },
  {
   "property": "C42",
   "status": "proved",
   "theorems": [
    "Semnet.Props.C42_every_node_in_one_entity",
    "Semnet.Props.C42_size_is_weight",
    "Semnet.Props.C42_members_are_recognised",
    "Semnet.Props.C42_characters_found",
    "Semnet.Props.C42_words_found",
    "Semnet.Props.C42_phrases_found",
    "Semnet.Props.C42_details_found",
    "Semnet.Props.C42_remarks_found",
    "Semnet.Props.C42_facts_found",
    "Semnet.Props.C42_stories_found"
   ],
   "note": ""
  },
  {
   "property": "C43",
   "status": "proved",
   "theorems": [
    "Semnet.Props.C43_any_storage",
    "Semnet.Props.C43_any_storage_crash",
    "Semnet.Props.C43_calm_history",
    "Semnet.Props.C43_one_faulty_event",
    "Semnet.Props.C43_stormy_history",
    "Semnet.Props.C43_linear",
    "Semnet.Props.C43_failed_calls_grow"
   ],
   "note": ""
  },
  {
   "property": "C44",
   "status": "partial",
   "theorems": [
    "Semnet.Props.C44_replaced",
    "Semnet.Props.C44_storage_independent_partial",
    "Semnet.Props.C44_order_decides"
   ],
   "note": "The full statement is false of the code; witness C44_order_decides: with undecodable bytes in a second word, the order in which the storage lists edges decides whether a later call succeeds. C44_storage_independent_partial covers all texts whose undecodable bytes are in first words only; C44_replaced reduces these to valid texts, for any storage and failures."
  },
  {
   "property": "C45",
   "status": "partial",
   "theorems": [
    "Semnet.Props.C45_first_fact_partial",
    "Semnet.Props.C45_need_node_zero",
    "Semnet.Props.C45_next_fact_partial",
    "Semnet.Props.C45_next_fact_not_in_story",
    "Semnet.Props.C45_child_without_parent",
    "Semnet.Props.C45_child_made",
    "Semnet.Props.C45_facts_of_histories"
   ],
   "note": "The full statement is false of the code; C45_need_node_zero, C45_next_fact_not_in_story and C45_child_without_parent show it for all storages that are in order and all whole facts, not just in a witness. What holds: C45_first_fact_partial (CreateFirstStoryFact does all it should) and C45_next_fact_partial (the link to the next fact). C45_facts_of_histories: the hypotheses hold for every fact after every fault-free history."
  },
  {
   "property": "C46",
   "status": "proved",
   "theorems": [
    "Semnet.Props.C46_layers_round_trip",
    "Semnet.Props.C46_api_unharmed",
    "Semnet.Props.C46_every_rune_accepted"
   ],
   "note": ""
  },
  {
   "property": "C47",
   "status": "proved",
   "theorems": [
    "Semnet.Props.C47_reading_cost",
    "Semnet.Props.C47_reading_cost_after_failures",
    "Semnet.Props.C47_independent_of_storage",
    "Semnet.Props.C47_linear"
   ],
   "note": ""
  },
  {
   "property": "C48",
   "status": "proved",
   "theorems": [
    "Semnet.Props.C48_remarks_readable",
    "Semnet.Props.C48_remarks_distinct",
    "Semnet.Props.C48_answers_right",
    "Semnet.Props.C48_readers_succeed",
    "Semnet.Props.C48_nothing_lost",
    "Semnet.Props.C48_node_zero_false"
   ],
   "note": "For storages without a node 0, as stated; C48_node_zero_false is a witness that it fails otherwise. Storage calls are atomic."
  },
  {
   "property": "C49",
   "status": "proved",
   "theorems": [
    "Semnet.Props.C49_remarks_readable",
    "Semnet.Props.C49_remarks_distinct",
    "Semnet.Props.C49_answers_right",
    "Semnet.Props.C49_readers_succeed",
    "Semnet.Props.C49_nothing_lost",
    "Semnet.Props.C49_first_calls_false"
   ],
   "note": "For storages that have no node 0 and hold a remark, as stated; C49_first_calls_false is a witness that it fails for the very first calls. Memory is sequentially consistent."
  },
  {
   "property": "C50",
   "status": "proved",
   "theorems": [
    "Semnet.Props.C50_wait_free",
    "Semnet.Props.C50_never_stuck",
    "Semnet.Props.C50_budget_is_immaterial"
   ],
   "note": "For storages without a node 0, as in C49; the budget theorem is for runs without the non-failing readers."
  },
  {
   "property": "C51",
   "status": "proved",
   "theorems": [
    "Semnet.Props.C51_due_calls_succeed",
    "Semnet.Props.C51_due_calls_return",
    "Semnet.Props.C51_new_text_false"
   ],
   "note": "For storages without a node 0 that answer the same question in the same order, and storage calls that do not fail; that nobody adds text is needed: witness C51_new_text_false."
  },
  {
   "property": "C52",
   "status": "proved",
   "theorems": [
    "Semnet.Props.C52_remarks_readable",
    "Semnet.Props.C52_remarks_distinct",
    "Semnet.Props.C52_answers_right",
    "Semnet.Props.C52_readers_succeed",
    "Semnet.Props.C52_nothing_lost",
    "Semnet.Props.C52_due_calls_succeed",
    "Semnet.Props.C52_never_stuck",
    "Semnet.Props.C52_due_calls_return",
    "Semnet.Props.C52_new_text_false"
   ],
   "note": "After fault-free histories, on storages that answer the same question in the same order. Without CreateChildStory; that nobody adds text is needed: witnesses C52_new_text_false and C48_node_zero_false."
  },
  {
   "property": "C53",
   "status": "proved",
   "theorems": [
    "Semnet.Props.C53_source_character",
    "Semnet.Props.C53_source_word",
    "Semnet.Props.C53_no_parent_story",
    "Semnet.Props.C53_creates_nothing",
    "Semnet.Props.C53_marks_add_an_edge",
    "Semnet.Props.C53_extends_nothing"
   ],
   "note": "All claims are proved; texts fit the loop budget and storage calls do not fail."
  },
  {
   "property": "C54",
   "status": "proved",
   "theorems": [
    "Semnet.Props.C54_ordinary",
    "Semnet.Props.C54_readable",
    "Semnet.Props.C54_identifiers",
    "Semnet.Props.C54_stormy",
    "Semnet.Props.C54_log_grows",
    "Semnet.Props.C54_same_remarks",
    "Semnet.Props.C54_same_verdicts",
    "Semnet.Props.C54_same_answers",
    "Semnet.Props.C54_mood_is_immaterial"
   ],
   "note": "All claims are proved; texts fit the loop budget and Connect ignores existing edges."
  },
  {
   "property": "C55",
   "status": "proved",
   "theorems": [
    "Semnet.Props.C55_ordinary",
    "Semnet.Props.C55_remarks_readable",
    "Semnet.Props.C55_remarks_distinct",
    "Semnet.Props.C55_answers_right",
    "Semnet.Props.C55_readers_succeed",
    "Semnet.Props.C55_nothing_lost",
    "Semnet.Props.C55_wait_free",
    "Semnet.Props.C55_budget_is_immaterial"
   ],
   "note": "All claims are proved; no node 0, the storage holds a remark, texts fit the loop budget and Connect ignores existing edges."
  },
  {
   "property": "C56",
   "status": "proved",
   "theorems": [
    "Semnet.Props.C56_refusals_are_final_moody",
    "Semnet.Props.C56_refusals_are_final",
    "Semnet.Props.C56_success_is_not_final",
    "Semnet.Props.C56_only_what_was_tried"
   ],
   "note": "For storages that ignore repeated edges and valid UTF-8 texts that fit the loop budget; without failures and crashes. The two things said not to be true are witnesses C56_success_is_not_final and C56_only_what_was_tried."
  },
  {
   "property": "C57",
   "status": "proved",
   "theorems": [
    "Semnet.Props.C57_remarks_readable",
    "Semnet.Props.C57_remarks_distinct",
    "Semnet.Props.C57_answers_right",
    "Semnet.Props.C57_readers_succeed",
    "Semnet.Props.C57_nothing_lost",
    "Semnet.Props.C57_due_calls_succeed",
    "Semnet.Props.C57_never_stuck",
    "Semnet.Props.C57_due_calls_return",
    "Semnet.Props.C57_lookup_ignores_moods",
    "Semnet.Props.C57_familiar_once"
   ],
   "note": "All claims are proved; texts fit the loop budget, Connect ignores existing edges, no storage call of the race fails. Familiarity is asked of every order; C57_familiar_once reduces it to one order after fault-free histories with texts of characters."
  },
  {
   "property": "C58",
   "status": "proved",
   "theorems": [
    "Semnet.Props.C58_noted_pairs_found_exactly",
    "Semnet.Props.C58_found_only_if_stored",
    "Semnet.Props.C58_noted_pairs_familiar_exactly",
    "Semnet.Props.C58_lost_for_ever",
    "Semnet.Props.C58_race_needs_no_new_text",
    "Semnet.Props.C58_due_calls_succeed",
    "Semnet.Props.C58_found_comes_and_goes"
   ],
   "note": "For storages that ignore repeated edges and valid UTF-8 texts that fit the loop budget; without failures and crashes before the race. That a remark does not make its pair findable is the witness C58_found_comes_and_goes."
  },
  {
   "property": "C59",
   "status": "proved",
   "theorems": [
    "Semnet.Props.C59_due_calls_succeed",
    "Semnet.Props.C59_due_calls_succeed_plain",
    "Semnet.Props.C59_letters_succeed",
    "Semnet.Props.C59_due_calls_return",
    "Semnet.Props.C59_remarks_readable",
    "Semnet.Props.C59_remarks_distinct",
    "Semnet.Props.C59_answers_right",
    "Semnet.Props.C59_readers_succeed",
    "Semnet.Props.C59_never_stuck",
    "Semnet.Props.C59_nul_false"
   ],
   "note": "All claims are proved; texts fit the loop budget, Connect ignores existing edges, the storage holds a remark. That NUL must not be used is the witness C59_nul_false; that a condition on the characters is needed, C51_new_text_false."
  },
  {
   "property": "C60",
   "status": "proved",
   "theorems": [
    "Semnet.Props.C60_as_if_seen",
    "Semnet.Props.C60_layer_kept",
    "Semnet.Props.C60_as_if_seen_synchronized",
    "Semnet.Props.C60_creating_initializes",
    "Semnet.Props.C60_reading_initializes",
    "Semnet.Props.C60_remarks_readable",
    "Semnet.Props.C60_readers_succeed"
   ],
   "note": "All claims are proved. C60_as_if_seen, C60_as_if_seen_synchronized, C60_layer_kept and the two _initializes theorems are for all storages, histories and texts; the consequences for remarks and readers are for storages without a node 0 that hold a remark, as stated."
  },
  {
   "property": "C61",
   "status": "partial",
   "theorems": [
    "Semnet.Props.C61_answer_can_be_wrong",
    "Semnet.Props.C61_call_can_panic",
    "Semnet.Props.C61_question_can_fail",
    "Semnet.Props.C61_remark_can_be_lost",
    "Semnet.Props.C61_remarks_readable_partial",
    "Semnet.Props.C61_remarks_distinct_partial",
    "Semnet.Props.C61_answers_right_partial"
   ],
   "note": "The full statement is false of the code; witnesses C61_answer_can_be_wrong, C61_call_can_panic, C61_question_can_fail, C61_remark_can_be_lost. What holds is proved with suffix _partial: entities seen whole, storages without a node 0."
  },
  {
   "property": "C62",
   "status": "proved",
   "theorems": [
    "Semnet.Props.C62_unusable_for_ever",
    "Semnet.Props.C62_calls_fail",
    "Semnet.Props.C62_readers_fail",
    "Semnet.Props.C62_history",
    "Semnet.Props.C62_every_first_call",
    "Semnet.Props.C62_after_crash",
    "Semnet.Props.C62_after_failure",
    "Semnet.Props.C62_after_race"
   ],
   "note": "Also the ways there: C62_every_first_call for crashes in general; C62_after_crash, C62_after_failure, C62_after_race are witnesses."
  },
  {
   "property": "C63",
   "status": "partial",
   "theorems": [
    "Semnet.Props.C63_wrong_texts",
    "Semnet.Props.C63_wrong_texts_after_failure",
    "Semnet.Props.C63_unusable_for_ever_partial",
    "Semnet.Props.C63_calls_fail_partial",
    "Semnet.Props.C63_readers_fail_partial",
    "Semnet.Props.C63_history_partial",
    "Semnet.Props.C63_every_first_call",
    "Semnet.Props.C63_every_first_call_can_be_fatal",
    "Semnet.Props.C63_after_crash",
    "Semnet.Props.C63_after_failure"
   ],
   "note": "The full statement is false of the code; witnesses C63_wrong_texts, C63_wrong_texts_after_failure (storages with a node 0). What holds, on storages without a node 0, is proved with suffix _partial; the way there in general is C63_every_first_call."
  },
  {
   "property": "C64",
   "status": "proved",
   "theorems": [
    "Semnet.Props.C64_no_remark_ever",
    "Semnet.Props.C64_calls_fail",
    "Semnet.Props.C64_history",
    "Semnet.Props.C64_after_crash",
    "Semnet.Props.C64_after_late_crash",
    "Semnet.Props.C64_unreadable_remark"
   ],
   "note": "Also the ways there: C64_after_crash, C64_after_late_crash, C64_unreadable_remark are witnesses."
  },
  {
   "property": "C65",
   "status": "proved",
   "theorems": [
    "Semnet.Props.C65_reverses",
    "Semnet.Props.C65_twice",
    "Semnet.Props.C65_as_modelled"
   ],
   "note": "All claims are proved."
  },
  {
   "property": "C66",
   "status": "partial",
   "theorems": [
    "Semnet.Props.C66_class_nodes_accept_facts",
    "Semnet.Props.C66_class_node_accepts_stories",
    "Semnet.Props.C66_node_zero",
    "Semnet.Props.C66_remarks_stay_readable_partial",
    "Semnet.Props.C66_no_remark_partial",
    "Semnet.Props.C66_add_remark_partial"
   ],
   "note": "The full statement is false of the code; witnesses C66_class_nodes_accept_facts, C66_class_node_accepts_stories, C66_node_zero. What holds is proved with suffix _partial: storages without a node 0, calls without failures, AddRemarkToFact on identifiers not marked as remarks, AddFactToStory on all but 1 and 2, CreateChildStory on all but 1."
  },
  {
   "property": "C67",
   "status": "proved",
   "theorems": [
    "Semnet.Props.C67_add_fact_leaves_remark",
    "Semnet.Props.C67_create_child_leaves_remark",
    "Semnet.Props.C67_every_creating_call_makes_a_remark"
   ],
   "note": "That AddFactToStory and CreateChildStory never succeed without a node 0 is C26."
  },
  {
   "property": "C68",
   "status": "proved",
   "theorems": [
    "Semnet.Props.C68_add_fact_remark_is_lost",
    "Semnet.Props.C68_create_child_remark_is_lost"
   ],
   "note": "All claims are proved."
  },
  {
   "property": "C69",
   "status": "proved",
   "theorems": [
    "Semnet.Props.C69_after_add_fact",
    "Semnet.Props.C69_after_create_child"
   ],
   "note": "That the call fails is C68. One call on the remark left behind is covered."
  }
 ]
}