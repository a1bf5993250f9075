{
 "claims": [
  {
   "property": "C01",
   "status": "proved",
   "theorems": [
    "Verif.Props.C01_score_accounting",
    "Verif.Props.C01_score_exact",
    "Verif.Props.C01_checked_again"
   ],
   "note": ""
  },
  {
   "property": "C02",
   "status": "proved",
   "theorems": [
    "Verif.Props.C02_failure_is_no_match",
    "Verif.Props.C02_failing_rule_removable",
    "Verif.Props.C02_eval_rule_never_raises"
   ],
   "note": ""
  },
  {
   "property": "C03",
   "status": "proved",
   "theorems": [
    "Verif.Props.C03_stop",
    "Verif.Props.C03_no_stop"
   ],
   "note": ""
  },
  {
   "property": "C04",
   "status": "partial",
   "theorems": [
    "Verif.Props.C04_mimeheader_violated",
    "Verif.Props.C04_order",
    "Verif.Props.C04_priority"
   ],
   "note": "Ordering and reading of priorities proved. Witness: the configured priority of a mimeheader rule is dropped, so such rules are not ordered as configured."
  },
  {
   "property": "C05",
   "status": "proved",
   "theorems": [
    "Verif.Props.C05_silent_rules_not_evaluated",
    "Verif.Props.C05_evaluated_exactly",
    "Verif.Props.C05_lookup",
    "Verif.Props.C05_silent_rules_not_reported"
   ],
   "note": ""
  },
  {
   "property": "C06",
   "status": "partial",
   "theorems": [
    "Verif.Props.C06_score_selection_partial",
    "Verif.Props.C06_no_flags_partial",
    "Verif.Props.C06_first_score_zero_violated"
   ],
   "note": "Violated by the code when the first of four scores is 0 (the advanced selection is skipped); proved otherwise for all names, lists, flags and configurations."
  },
  {
   "property": "C07",
   "status": "partial",
   "theorems": [
    "Verif.Props.C07_verdict",
    "Verif.Props.C07_ifspam_partial",
    "Verif.Props.C07_headers",
    "Verif.Props.C07_process",
    "Verif.Props.C07_headers_only",
    "Verif.Props.C07_nan_violated",
    "Verif.Props.C07_tags",
    "Verif.Props.C07_same_tags"
   ],
   "note": "All checking commands, REPORT_IFSPAM, the header choice of PROCESS and HEADERS, the wrapping and the YESNO tags follow 'required score <= score'. Violated when the score is NaN (score X nan is accepted): REPORT_IFSPAM compares the other way round."
  },
  {
   "property": "C08",
   "status": "proved",
   "theorems": [
    "Verif.Props.C08_symbols_and_tests",
    "Verif.Props.C08_reports"
   ],
   "note": ""
  },
  {
   "property": "C09",
   "status": "proved",
   "theorems": [
    "Verif.Props.C09_resolution",
    "Verif.Props.C09_bad_dropped",
    "Verif.Props.C09_paranoid"
   ],
   "note": ""
  },
  {
   "property": "C10",
   "status": "partial",
   "theorems": [
    "Verif.Props.C10_meaning_partial",
    "Verif.Props.C10_not_precedence_violated",
    "Verif.Props.C10_single_rule",
    "Verif.Props.C10_keyword_violated",
    "Verif.Props.C10_zeros_violated",
    "Verif.Props.C10_not_operand_violated",
    "Verif.Props.C10_own_names_violated"
   ],
   "note": "Violated for '!' used as an operand of arithmetic or comparison (two witnesses), for rules named like words of Python, and for rules named 'msg' or 'match' (the names of the compiled function). Proved for every other expression and spacing in which such '!' is parenthesised; numbers have no leading zeros: with them, any number but zero raises (C10_zeros_violated)."
  },
  {
   "property": "C11",
   "status": "proved",
   "theorems": [
    "Verif.Props.C11_pasted",
    "Verif.Props.C11_depth",
    "Verif.Props.C11_cycle",
    "Verif.Props.C11_include_path",
    "Verif.Props.C11_real"
   ],
   "note": ""
  },
  {
   "property": "C12",
   "status": "partial",
   "theorems": [
    "Verif.Props.C12_nested_violated",
    "Verif.Props.C12_sections_partial",
    "Verif.Props.C12_loaded_enabled",
    "Verif.Props.C12_nested_partial"
   ],
   "note": "C12_nested_violated: a section inside a section that is not taken ends that section too early. Proved: every sequence of sections without nesting (C12_sections_partial), and files with includes and with sections nested to any depth in parts that are taken (C12_nested_partial). Missing: nothing but the violated case, sections inside parts that are not taken."
  },
  {
   "property": "C13",
   "status": "partial",
   "theorems": [
    "Verif.Props.C13_last_line_wins_partial",
    "Verif.Props.C13_lang_partial",
    "Verif.Props.C13_lang_report_violated",
    "Verif.Props.C13_redefinition_violated"
   ],
   "note": "Fails for lang lines containing 'report' and for the target of redefined eval rules (witnesses). Proved for all other sequences of definition lines, and for lang lines."
  },
  {
   "property": "C14",
   "status": "proved",
   "theorems": [
    "Verif.Props.C14_line_removed",
    "Verif.Props.C14_comment_removed"
   ],
   "note": ""
  },
  {
   "property": "C15",
   "status": "partial",
   "theorems": [
    "Verif.Props.C15_option_violated",
    "Verif.Props.C15_loadplugin_violated",
    "Verif.Props.C15_lang_violated",
    "Verif.Props.C15_never_aborts_partial",
    "Verif.Props.C15_malformed_ignored_partial",
    "Verif.Props.C15_malformed_reported_partial",
    "Verif.Props.C15_real_partial"
   ],
   "note": "Fails for options with unusable values, plugin names without module, and lang without locale: they abort tolerant parsing (witnesses). Proved for lines with missing arguments, and that nothing else aborts: C15_real_partial says so for the main configuration, files whose numbers can be read and plugins that load or are refused."
  },
  {
   "property": "C16",
   "status": "partial",
   "theorems": [
    "Verif.Props.C16_pattern_partial",
    "Verif.Props.C16_operator_violated",
    "Verif.Props.C16_undecodable_violated",
    "Verif.Props.C16_groups",
    "Verif.Props.C16_all_partial",
    "Verif.Props.C16_all_violated",
    "Verif.Props.C16_exists_partial",
    "Verif.Props.C16_exists_violated",
    "Verif.Props.C16_mime_partial",
    "Verif.Props.C16_mime_operator"
   ],
   "note": "Proved for plain header names whose values can be decoded. Witnesses where the code deviates: '=~' inside a pattern after '!~', an undecodable value, ALL lower-cases header names, exists: eats leading letters of the name. mimeheader: same restrictions as the pattern theorem."
  },
  {
   "property": "C17",
   "status": "partial",
   "theorems": [
    "Verif.Props.C17_text_partial",
    "Verif.Props.C17_nested_violated",
    "Verif.Props.C17_empty_violated",
    "Verif.Props.C17_local_flags",
    "Verif.Props.C17_atomic",
    "Verif.Props.C17_optional_boundary",
    "Verif.Props.C17_malformed_partial",
    "Verif.Props.C17_uncompilable",
    "Verif.Props.C17_blank_violated",
    "Verif.Props.C17_negation"
   ],
   "note": "Proved for texts that do not start with the opening delimiter and are not empty between equal delimiters; local flags, atomic groups and optional boundaries have their own theorems. Witnesses: nested, empty and blank patterns."
  },
  {
   "property": "C18",
   "status": "partial",
   "theorems": [
    "Verif.Props.C18_tolerant_partial",
    "Verif.Props.C18_once",
    "Verif.Props.C18_paranoid",
    "Verif.Props.C18_paranoid_silent",
    "Verif.Props.C18_valid",
    "Verif.Props.C18_dropped",
    "Verif.Props.C18_score_violated",
    "Verif.Props.C18_header_violated",
    "Verif.Props.C18_blank_violated"
   ],
   "note": "Tolerant mode proved for definitions that raise no exception outside invalid-rule/invalid-regex. Witnesses: header rule without operator, non-numeric score and blank pattern abort the whole build. Validity characterised for full/body/rawbody/uri."
  },
  {
   "property": "C19",
   "status": "proved",
   "theorems": [
    "Verif.Props.C19_typed_option",
    "Verif.Props.C19_unknown_key",
    "Verif.Props.C19_timevalue",
    "Verif.Props.C19_last"
   ],
   "note": ""
  },
  {
   "property": "C20",
   "status": "proved",
   "theorems": [
    "Verif.Props.C20_append",
    "Verif.Props.C20_append_after_clear",
    "Verif.Props.C20_accepted",
    "Verif.Props.C20_main"
   ],
   "note": ""
  },
  {
   "property": "C21",
   "status": "partial",
   "theorems": [
    "Verif.Props.C21_append_leak_violated",
    "Verif.Props.C21_isolation_partial",
    "Verif.Props.C21_networks_violated"
   ],
   "note": "Fails for append options: the default list object is shared by all contexts (C21_append_leak_violated). Proved for all other options and for append options that are not given."
  },
  {
   "property": "C22",
   "status": "partial",
   "theorems": [
    "Verif.Props.C22_loaded_plugins",
    "Verif.Props.C22_eval_rules_violated",
    "Verif.Props.C22_failed_load_violated",
    "Verif.Props.C22_eval_rules_partial",
    "Verif.Props.C22_most_recent_partial"
   ],
   "note": "Fails for evaluation rules shared by two plugins and for loads that fail halfway (witnesses). Proved: plugin registry for every history; evaluation rules when no other plugin declares the same rule."
  },
  {
   "property": "C23",
   "status": "proved",
   "theorems": [
    "Verif.Props.C23_notification",
    "Verif.Props.C23_config_line"
   ],
   "note": ""
  },
  {
   "property": "C24",
   "status": "proved",
   "theorems": [
    "Verif.Props.C24_private",
    "Verif.Props.C24_reload"
   ],
   "note": ""
  },
  {
   "property": "C25",
   "status": "partial",
   "theorems": [
    "Verif.Props.C25_first_match",
    "Verif.Props.C25_append",
    "Verif.Props.C25_invalid_entry_violated"
   ],
   "note": "Proved for lists of valid networks. Witness: an invalid network is stored as None and every lookup that reaches it raises."
  },
  {
   "property": "C26",
   "status": "proved",
   "theorems": [
    "Verif.Props.C26_loopback"
   ],
   "note": ""
  },
  {
   "property": "C27",
   "status": "partial",
   "theorems": [
    "Verif.Props.C27_coincide",
    "Verif.Props.C27_internal_partial",
    "Verif.Props.C27_internal_is_trusted",
    "Verif.Props.C27_msa",
    "Verif.Props.C27_msa_violated"
   ],
   "note": "Proved for histories without an MSA network before the first internal one. Witness: after an MSA network, the first internal network does not clear the trusted ones."
  },
  {
   "property": "C28",
   "status": "partial",
   "theorems": [
    "Verif.Props.C28_partition",
    "Verif.Props.C28_marks",
    "Verif.Props.C28_total",
    "Verif.Props.C28_invalid_network_violated"
   ],
   "note": "Partition, order, intl mark and totality proved; totality needs valid networks. Witness: one invalid network makes classification raise. Addresses are assumed parseable; the relay tags are not modelled."
  },
  {
   "property": "C29",
   "status": "proved",
   "theorems": [
    "Verif.Props.C29_prefix"
   ],
   "note": ""
  },
  {
   "property": "C30",
   "status": "proved",
   "theorems": [
    "Verif.Props.C30_configured",
    "Verif.Props.C30_configured_iff",
    "Verif.Props.C30_unconfigured",
    "Verif.Props.C30_msa_field"
   ],
   "note": ""
  },
  {
   "property": "C31",
   "status": "proved",
   "theorems": [
    "Verif.Props.C31_external",
    "Verif.Props.C31_no_external"
   ],
   "note": ""
  },
  {
   "property": "C32",
   "status": "partial",
   "theorems": [
    "Verif.Props.C32_closest",
    "Verif.Props.C32_suppressed",
    "Verif.Props.C32_allowed",
    "Verif.Props.C32_table_partial",
    "Verif.Props.C32_malformed_violated"
   ],
   "note": "Search proved to end for every name and to follow the closest listed covering name; denied queries send nothing. Reading the option: a first value without a blank aborts loading (violated)."
  },
  {
   "property": "C33",
   "status": "proved",
   "theorems": [
    "Verif.Props.C33_no_test",
    "Verif.Props.C33_test_mode",
    "Verif.Props.C33_yes",
    "Verif.Props.C33_first_test",
    "Verif.Props.C33_at_most_once_per_interval"
   ],
   "note": "Over all histories with a monotone clock; yes/no never test; tests at least one interval apart."
  },
  {
   "property": "C34",
   "status": "proved",
   "theorems": [
    "Verif.Props.C34_no_cr",
    "Verif.Props.C34_idempotent",
    "Verif.Props.C34_styles"
   ],
   "note": ""
  },
  {
   "property": "C35",
   "status": "partial",
   "theorems": [
    "Verif.Props.C35_raw",
    "Verif.Props.C35_presence",
    "Verif.Props.C35_decoded",
    "Verif.Props.C35_first_address",
    "Verif.Props.C35_all",
    "Verif.Props.C35_after_parsing_partial",
    "Verif.Props.C35_received_violated",
    "Verif.Props.C35_added_partial",
    "Verif.Props.C35_plugin_header_violated"
   ],
   "note": "Raw, decoded, address and presence access proved. After parsing, every header but Received reads as written. Witnesses: parsing adds pseudo Received headers when originating_ip_headers is set; a plugin header hides the message's own. C35_added_partial: values added by plugins come last, in their order; the message's own ones are before them unless it was read without a first look (then they are hidden)."
  },
  {
   "property": "C36",
   "status": "proved",
   "theorems": [
    "Verif.Props.C36_author",
    "Verif.Props.C36_recipients"
   ],
   "note": ""
  },
  {
   "property": "C37",
   "status": "partial",
   "theorems": [
    "Verif.Props.C37_options",
    "Verif.Props.C37_no_colon",
    "Verif.Props.C37_undecodable_violated"
   ],
   "note": "Proved for all UTF-8 option lines. An option line that is not UTF-8 ends the connection without an answer: violated."
  },
  {
   "property": "C38",
   "status": "partial",
   "theorems": [
    "Verif.Props.C38_length_partial",
    "Verif.Props.C38_length_any",
    "Verif.Props.C38_until_close",
    "Verif.Props.C38_bad_length",
    "Verif.Props.C38_split_violated",
    "Verif.Props.C38_zlib_violated"
   ],
   "note": "Framing proved for every transport chunking and length; acceptance for ASCII messages. Violated by the code: a valid UTF-8 message is refused when a character straddles a chunk, and compressed messages are never accepted."
  },
  {
   "property": "C39",
   "status": "partial",
   "theorems": [
    "Verif.Props.C39_status_partial",
    "Verif.Props.C39_length_partial",
    "Verif.Props.C39_length_violated",
    "Verif.Props.C39_key_error_violated",
    "Verif.Props.C39_no_answer_violated",
    "Verif.Props.C39_tags_violated"
   ],
   "note": "Proved for commands that end without an exception; announced length equals the bytes sent for ASCII payloads. Violated: the length counts characters; a KeyError while answering (e.g. report_safe 0 on a short-circuited message) adds an error line after the success line; other exceptions leave the request unanswered."
  },
  {
   "property": "C40",
   "status": "partial",
   "theorems": [
    "Verif.Props.C40_ping",
    "Verif.Props.C40_skip",
    "Verif.Props.C40_unknown",
    "Verif.Props.C40_known_partial",
    "Verif.Props.C40_words_violated"
   ],
   "note": "Proved for request lines of two words. Other request lines are not answered at all: violated."
  },
  {
   "property": "C41",
   "status": "partial",
   "theorems": [
    "Verif.Props.C41_tell_partial",
    "Verif.Props.C41_blank_violated",
    "Verif.Props.C41_failed_violated",
    "Verif.Props.C41_only_tell"
   ],
   "note": "Proved for comma-separated lists without blanks and hooks that do not fail. Violated: 'local, remote' is answered as done but remote is ignored; if revoking fails the report already made is not mentioned."
  },
  {
   "property": "C42",
   "status": "partial",
   "theorems": [
    "Verif.Props.C42_named_user",
    "Verif.Props.C42_not_allowed",
    "Verif.Props.C42_no_preferences",
    "Verif.Props.C42_isolation_partial",
    "Verif.Props.C42_isolation_violated"
   ],
   "note": "Gating and the missing-preferences case hold for every history (C42_not_allowed, C42_no_preferences), and the request uses the ruleset of the last User line (C42_named_user). Isolation is proved as non-interference for rules, plugins and options that lines set (C42_isolation_partial, on the parser and option models). Violated for options that lines add to: default lists are shared class attributes, so one user's 'report' line shows up for another user and for the site after a reload (C42_isolation_violated)."
  },
  {
   "property": "C43",
   "status": "partial",
   "theorems": [
    "Verif.Props.C43_reload",
    "Verif.Props.C43_as_new_partial",
    "Verif.Props.C43_same_rules_partial",
    "Verif.Props.C43_read_once_partial",
    "Verif.Props.C43_reload_violated",
    "Verif.Props.C43_new_prefs_violated"
   ],
   "note": "C43_reload: after a successful reload only rulesets made from the new files are used. C43_as_new_partial: rules, plugins and set-type options equal those of a new server. Violated: added-to options double at each reload (C43_reload_violated); preferences created after the first request change the rules without reload (C43_new_prefs_violated). C43_same_rules_partial and C43_read_once_partial need the preferences to have been read, respectively to be parseable."
  },
  {
   "property": "C44",
   "status": "partial",
   "theorems": [
    "Verif.Props.C44_confined_partial",
    "Verif.Props.C44_confined_violated"
   ],
   "note": "Exact characterisation: confined if and only if the name is non-empty, has no slash and is not '.' or '..' (C44_confined_partial). Violated for other names a client can send (C44_confined_violated). Symbolic links are not modelled."
  },
  {
   "property": "C45",
   "status": "partial",
   "theorems": [
    "Verif.Props.C45_again_partial",
    "Verif.Props.C45_other_class_partial",
    "Verif.Props.C45_forget_partial",
    "Verif.Props.C45_answers_partial",
    "Verif.Props.C45_switched_off",
    "Verif.Props.C45_recorded",
    "Verif.Props.C45_odd_flag",
    "Verif.Props.C45_new_message_violated",
    "Verif.Props.C45_forget_violated",
    "Verif.Props.C45_forget_empty_violated"
   ],
   "note": "The plugin's logic (learn, learn again, learn as the other class, forget) is proved for every store that meets the stated contract. Both stores in the code break the contract: seen_get raises for every message without a record, so no new message is ever learned (C45_new_message_violated); forgetting a message with tokens raises after overwriting the numbers of messages (C45_forget_violated)."
  },
  {
   "property": "C46",
   "status": "partial",
   "theorems": [
    "Verif.Props.C46_history_partial",
    "Verif.Props.C46_nothing_learned_violated",
    "Verif.Props.C46_overwritten_violated",
    "Verif.Props.C46_half_done_violated"
   ],
   "note": "Over any store meeting the contract the counts equal the learned history, for every history (C46_history_partial). With the stores in the code nothing is ever learned from an empty database (C46_nothing_learned_violated), and changing the class of a recorded message overwrites the counts (C46_overwritten_violated, C46_half_done_violated)."
  },
  {
   "property": "C47",
   "status": "partial",
   "theorems": [
    "Verif.Props.C47_skipped",
    "Verif.Props.C47_value",
    "Verif.Props.C47_range",
    "Verif.Props.C47_more_spam_partial",
    "Verif.Props.C47_more_spam_violated",
    "Verif.Props.C47_no_corpus"
   ],
   "note": "Range, exact value and skipping are proved in exact rational arithmetic for all counts. 'More spam occurrences never lower it' holds whenever there are at least as many ham as spam messages (C47_more_spam_partial) and is false otherwise (C47_more_spam_violated, 200 ham and 30000 spam messages)."
  },
  {
   "property": "C48",
   "status": "proved",
   "theorems": [
    "Verif.Props.C48_range",
    "Verif.Props.C48_value",
    "Verif.Props.C48_symmetric",
    "Verif.Props.C48_monotone"
   ],
   "note": "C48_range holds for every lawful rounding (Spec/BayesScore.Lawful), not only exact arithmetic; value, symmetry and monotonicity are for exact real arithmetic. The unused NaiveBayes combiner is not modelled."
  },
  {
   "property": "C49",
   "status": "partial",
   "theorems": [
    "Verif.Props.C49_weakest_violated",
    "Verif.Props.C49_strongest_violated",
    "Verif.Props.C49_few_partial",
    "Verif.Props.C49_misaligned_violated"
   ],
   "note": "With at most 150 known tokens and none skipped exactly the strong enough ones are used with their own probability. With more, the weakest are used (C49_weakest_violated, C49_strongest_violated); a skipped token shifts the probabilities of the following ones (C49_misaligned_violated)."
  },
  {
   "property": "C50",
   "status": "partial",
   "theorems": [
    "Verif.Props.C50_sender_total",
    "Verif.Props.C50_others_untouched",
    "Verif.Props.C50_entry_partial",
    "Verif.Props.C50_adopted_violated",
    "Verif.Props.C50_mysql_violated",
    "Verif.Props.C50_mysql_first"
   ],
   "note": "All histories of messages of one user against an initially empty table (SQLAlchemy store): the rows of a sender add up to the sender's messages and their unadjusted scores (C50_sender_total); a check leaves every other entry alone (C50_others_untouched); each row is exactly the summary of the sender's messages from that network (C50_entry_partial) unless messages with and without a known origin are mixed, because the row without an address is adopted by the first network seen (C50_adopted_violated). With MySQL and no SQLAlchemy every row is overwritten (C50_mysql_violated). Simplification: scores are exact rationals; one writer at a time."
  },
  {
   "property": "C51",
   "status": "partial",
   "theorems": [
    "Verif.Props.C51_unknown",
    "Verif.Props.C51_towards_mean_partial",
    "Verif.Props.C51_between",
    "Verif.Props.C51_zero_mean_violated"
   ],
   "note": "An unknown sender's score is unchanged (C51_unknown); a known one moves by the factor towards the mean of its earlier scores (C51_towards_mean_partial) and never past it for factors in [0,1] (C51_between). A mean of exactly 0 is treated as no history (C51_zero_mean_violated)."
  },
  {
   "property": "C52",
   "status": "partial",
   "theorems": [
    "Verif.Props.C52_stops_partial",
    "Verif.Props.C52_inside_meta",
    "Verif.Props.C52_only_cause",
    "Verif.Props.C52_rule_unaffected",
    "Verif.Props.C52_unaffected",
    "Verif.Props.C52_last_line_violated",
    "Verif.Props.C52_off_violated",
    "Verif.Props.C52_empty_text_violated"
   ],
   "note": "For all rulesets with meta rules nested to any depth, all positions and all well-formed settings: a configured rule that matches is counted once with the bonus of its type and nothing runs after it (C52_stops_partial); stopping has no other cause (C52_only_cause); unlisted and non-matching rules behave as without the plugin (C52_rule_unaffected, C52_unaffected). Missing because the code disagrees: of several settings of a rule the first wins and 'off' never switches off (C52_last_line_violated, C52_off_violated); a match with an empty text does not stop (C52_empty_text_violated). The missing description of a short-circuited rule is C39_key_error_violated."
  },
  {
   "property": "C53",
   "status": "partial",
   "theorems": [
    "Verif.Props.C53_spam_partial",
    "Verif.Props.C53_ham_decision_partial",
    "Verif.Props.C53_never_ham",
    "Verif.Props.C53_alike_violated",
    "Verif.Props.C53_unmatched_violated",
    "Verif.Props.C53_not_learned_violated"
   ],
   "note": "For all rulesets, flags, thresholds and scores: learned as spam exactly if the points, the header and body minimums, the learner's points and the score allow it (C53_spam_partial), but the points are of all rules of the ruleset, matched or not (C53_unmatched_violated: learned though the matched rules do not reach the threshold; C53_not_learned_violated: the converse). Ham is never learned (C53_never_ham); the decision about it is C53_ham_decision_partial. Simplification: exact rationals."
  },
  {
   "property": "C54",
   "status": "partial",
   "theorems": [
    "Verif.Props.C54_spf_violated",
    "Verif.Props.C54_spf_instance_violated",
    "Verif.Props.C54_dkim_violated",
    "Verif.Props.C54_dkim_new_instance_violated",
    "Verif.Props.C54_trail_violated",
    "Verif.Props.C54_domain",
    "Verif.Props.C54_first_partial"
   ],
   "note": "Violated: SPF results are kept in a class-level dictionary and stay true for ever (C54_spf_violated); DKIM and the Received trail are computed for the first message only (C54_dkim_violated, C54_trail_violated), and the author domains of the first message stay even for new instances (C54_dkim_new_instance_violated). Proved: the first message of a process is judged right (C54_first_partial; C65_valid_partial and C67_first_header_partial for DKIM and SPF)."
  },
  {
   "property": "C55",
   "status": "proved",
   "theorems": [
    "Verif.Props.C55_order",
    "Verif.Props.C55_members"
   ],
   "note": "Proved for all directory contents. os.listdir, expanduser and exists are parameters."
  },
  {
   "property": "C56",
   "status": "partial",
   "theorems": [
    "Verif.Props.C56_changes_partial",
    "Verif.Props.C56_untouched",
    "Verif.Props.C56_only_x_spam",
    "Verif.Props.C56_read",
    "Verif.Props.C56_order_violated",
    "Verif.Props.C56_report_added_violated",
    "Verif.Props.C56_wrapped_violated",
    "Verif.Props.C56_malformed_violated"
   ],
   "note": "Proved for messages that are not wrapped: the changes made are those of the lines for 'all' then those of the verdict, all additions before all removals; other headers untouched; only X-Spam- headers ever change. Violated by the code: removals run after additions whatever the order of the lines, report_safe 0 adds a report header to ham, report_safe 1 exchanges sender and recipient, malformed lines make loading fail."
  },
  {
   "property": "C57",
   "status": "partial",
   "theorems": [
    "Verif.Props.C57_bottom_up",
    "Verif.Props.C57_definition_order_violated",
    "Verif.Props.C57_definition_order_partial"
   ],
   "note": "Violated for all definitions with a chain of more than eleven meta rules: kept when every rule comes after those it refers to (C57_bottom_up, any depth), dropped when the head of the chain comes first (C57_definition_order_violated). Independence of the order is proved when no usable rule is nested deeper than eleven levels."
  },
  {
   "property": "C58",
   "status": "partial",
   "theorems": [
    "Verif.Props.C58_call_partial",
    "Verif.Props.C58_name_violated",
    "Verif.Props.C58_comma_violated",
    "Verif.Props.C58_unregistered"
   ],
   "note": "Proved for names not starting with a character of 'eval:' and non-empty arguments without commas. Witnesses: eval:all_ok() looks up _ok; a quoted comma splits the argument."
  },
  {
   "property": "C59",
   "status": "partial",
   "theorems": [
    "Verif.Props.C59_servers_partial",
    "Verif.Props.C59_default",
    "Verif.Props.C59_options_violated",
    "Verif.Props.C59_interval",
    "Verif.Props.C59_written_partial"
   ],
   "note": "Servers and port proved, also from the texts as documented (C59_written_partial); rotate, edns, lifetime, timeout and dns_test_interval are accepted but never reach the resolver, whatever they are (C59_options_violated)."
  },
  {
   "property": "C60",
   "status": "partial",
   "theorems": [
    "Verif.Props.C60_template_partial",
    "Verif.Props.C60_doubled_partial",
    "Verif.Props.C60_single_percent_violated",
    "Verif.Props.C60_underscores_violated",
    "Verif.Props.C60_values",
    "Verif.Props.C60_unknown_tag",
    "Verif.Props.C60_report"
   ],
   "note": "Proved for templates of plain text and tags, in or out of quotes, with underscores in the text and an unfinished tag at the end. Violated by the code for a percent sign and for two underscores in a row."
  },
  {
   "property": "C61",
   "status": "partial",
   "theorems": [
    "Verif.Props.C61_names_partial",
    "Verif.Props.C61_score_violated"
   ],
   "note": "The names, their order and 'none' are proved. The number shown is the rule's result (normally 1), not its score: violated."
  },
  {
   "property": "C62",
   "status": "partial",
   "theorems": [
    "Verif.Props.C62_rules_partial",
    "Verif.Props.C62_made",
    "Verif.Props.C62_options_violated",
    "Verif.Props.C62_plugin_rule_violated"
   ],
   "note": "Holds for rule attributes when the preferences only define rules and set options (C62_rules_partial). Violated for options (built-in defaults are used, C62_options_violated) and for plugins: a site rule of a plugin's type makes every request of such a user fail (C62_plugin_rule_violated)."
  },
  {
   "property": "C63",
   "status": "partial",
   "theorems": [
    "Verif.Props.C63_one_band_partial",
    "Verif.Props.C63_zero_violated",
    "Verif.Props.C63_switches"
   ],
   "note": "Exactly one band for every score above the lowest bound; score 0 hits none (C63_zero_violated)."
  },
  {
   "property": "C65",
   "status": "partial",
   "theorems": [
    "Verif.Props.C65_valid_partial",
    "Verif.Props.C65_error_violated",
    "Verif.Props.C65_author_violated"
   ],
   "note": "Proved for the first message of a process. Violated by an exception during verification (C65_error_violated), by the author rule, which accepts a rejected signature (C65_author_violated), and by everything C54 says about later messages."
  },
  {
   "property": "C67",
   "status": "partial",
   "theorems": [
    "Verif.Props.C67_first_header_partial",
    "Verif.Props.C67_case_violated",
    "Verif.Props.C67_dns_violated",
    "Verif.Props.C67_asked",
    "Verif.Props.C67_authentication_results"
   ],
   "note": "Proved for a plugin that has seen no other message and messages without Received headers. Violated: results not in lower case are lost (C67_case_violated); with Received headers the DNS result holds as well (C67_dns_violated)."
  },
  {
   "property": "C66",
   "status": "partial",
   "theorems": [
    "Verif.Props.C66_exact_partial",
    "Verif.Props.C66_covered_partial",
    "Verif.Props.C66_part_violated",
    "Verif.Props.C66_question_violated",
    "Verif.Props.C66_skipped_violated",
    "Verif.Props.C66_spf_partial",
    "Verif.Props.C66_spf_violated"
   ],
   "note": "Exactly what the code does: C66_exact_partial, C66_spf_partial. Violated: entries are searched anywhere in the address (C66_part_violated), the SPF lists at its beginning (C66_spf_violated); ? also stands for nothing (C66_question_violated); entries without ?, @ and . are skipped (C66_skipped_violated). Regular expressions made from entries are modelled as tokens with their matching relation."
  },
  {
   "property": "C68",
   "status": "partial",
   "theorems": [
    "Verif.Props.C68_whitelisted_partial",
    "Verif.Props.C68_default_partial",
    "Verif.Props.C68_whitelisted_not_forged",
    "Verif.Props.C68_not_forged_partial",
    "Verif.Props.C68_not_forged_default_partial",
    "Verif.Props.C68_forged_violated",
    "Verif.Props.C68_case_violated",
    "Verif.Props.C68_lines",
    "Verif.Props.C68_brackets"
   ],
   "note": "Exact conditions for being whitelisted; whitelisted messages are never called forged. Violated: with any entry in the list, every message from elsewhere is called forged (C68_forged_violated); entries with capital letters never match (C68_case_violated); * needs at least one character, and entries are searched anywhere in the address. ipaddress is a parameter."
  },
  {
   "property": "C69",
   "status": "partial",
   "theorems": [
    "Verif.Props.C69_base",
    "Verif.Props.C69_address_base",
    "Verif.Props.C69_name_base",
    "Verif.Props.C69_match_partial",
    "Verif.Props.C69_tail_violated",
    "Verif.Props.C69_no_at_violated"
   ],
   "note": "Base domain (C69_base) and the direction relay-in-domain implies true are proved. Violated: any host name ending in the letters of the domain is accepted (C69_tail_violated); a sender without @ raises (C69_no_at_violated)."
  },
  {
   "property": "C70",
   "status": "partial",
   "theorems": [
    "Verif.Props.C70_name",
    "Verif.Props.C70_exact_partial",
    "Verif.Props.C70_tail_violated",
    "Verif.Props.C70_path_violated",
    "Verif.Props.C70_excluded_violated",
    "Verif.Props.C70_delisted"
   ],
   "note": "Exact condition: C70_exact_partial. Violated: URIs are compared by their last letters, not by host (C70_tail_violated, C70_path_violated), so exclusions have no effect (C70_excluded_violated)."
  },
  {
   "property": "C71",
   "status": "partial",
   "theorems": [
    "Verif.Props.C71_text_partial",
    "Verif.Props.C71_parts_partial",
    "Verif.Props.C71_readable_partial",
    "Verif.Props.C71_subject_violated",
    "Verif.Props.C71_html_error_violated",
    "Verif.Props.C71_html_violated"
   ],
   "note": "C71_text_partial, C71_parts_partial: exact result for every message that is parsed. C71_readable_partial: decodable subjects and readable parts are enough. Violated: an undecodable Subject makes the constructor raise (C71_subject_violated); an HTML part the tokenizer gives up on does so on Python 3.5 and newer, because the except clause names html.parser.HTMLParseError (C71_html_error_violated); character references are dropped and words with markup or references inside are split (C71_html_violated). The email package, codecs and the HTML tokenizer are parameters."
  },
  {
   "property": "C72",
   "status": "partial",
   "theorems": [
    "Verif.Props.C72_sound",
    "Verif.Props.C72_complete_partial",
    "Verif.Props.C72_case_violated",
    "Verif.Props.C72_accent_violated"
   ],
   "note": "URL_RE is modelled as a scanner. C72_sound: every URI is a link in a text part. C72_complete_partial: every delimited link is found. Missing: links glued to other text, protocols in upper case (C72_case_violated), letters with accents, which end a link (C72_accent_violated)."
  },
  {
   "property": "C73",
   "status": "partial",
   "theorems": [
    "Verif.Props.C73_own",
    "Verif.Props.C73_generated_partial",
    "Verif.Props.C73_missing_violated",
    "Verif.Props.C73_chosen_violated"
   ],
   "note": "C73_own: a message with its own identifier. C73_generated_partial: generated identifiers coincide exactly if date and used part of the body do, for a collision-free digest. Violated: no identifier for a message without an empty line (C73_missing_violated); a sender can choose the generated identifier of another message (C73_chosen_violated)."
  },
  {
   "property": "C74",
   "status": "partial",
   "theorems": [
    "Verif.Props.C74_first_partial",
    "Verif.Props.C74_bad_date_violated"
   ],
   "note": "C74_first_partial gives the exact result. Violated: the first header with a semicolon decides, and if what follows is no date, an exception is raised (C74_bad_date_violated). parsedate is a parameter."
  },
  {
   "property": "C75",
   "status": "partial",
   "theorems": [
    "Verif.Props.C75_none_partial",
    "Verif.Props.C75_protocol_partial",
    "Verif.Props.C75_word_violated",
    "Verif.Props.C75_trusted_violated"
   ],
   "note": "Only the case without any authentication wording and the protocol form are as claimed. The word 'authenticated' anywhere in the header, also in the HELO name, makes a relay authenticated and so trusted and internal."
  },
  {
   "property": "C76",
   "status": "partial",
   "theorems": [
    "Verif.Props.C76_address_partial",
    "Verif.Props.C76_helo_violated",
    "Verif.Props.C76_semicolon_violated",
    "Verif.Props.C76_private_partial",
    "Verif.Props.C76_words_partial",
    "Verif.Props.C76_by_partial",
    "Verif.Props.C76_brackets_partial",
    "Verif.Props.C76_private_violated",
    "Verif.Props.C76_undecodable_violated",
    "Verif.Props.C76_bad_address_violated",
    "Verif.Props.C76_order_partial",
    "Verif.Props.C76_fields_partial",
    "Verif.Props.C76_sender_partial",
    "Verif.Props.C76_sender_violated"
   ],
   "note": "Order of relays and choice of the last public address before ' by ' proved. Violated: a HELO address behind the seen one is taken, a semicolon hides the rest, 172.16/12 is not private, senders with '=' are cut, undecodable headers and addresses ipaddress rejects make the message unreadable."
  },
  {
   "property": "C77",
   "status": "partial",
   "theorems": [
    "Verif.Props.C77_unambiguous",
    "Verif.Props.C77_lists",
    "Verif.Props.C77_single_partial",
    "Verif.Props.C77_last_violated"
   ],
   "note": "Unambiguity needs fields without spaces. LASTEXTERNAL* describe the relay farthest away when more than one external relay is known."
  },
  {
   "property": "C78",
   "status": "partial",
   "theorems": [
    "Verif.Props.C78_cases",
    "Verif.Props.C78_numeric",
    "Verif.Props.C78_mismatch",
    "Verif.Props.C78_dotcom",
    "Verif.Props.C78_no_reverse_violated",
    "Verif.Props.C78_from_domain_partial",
    "Verif.Props.C78_from_domain_violated"
   ],
   "note": "check_for_sender_no_reverse has the opposite sense; the domain test is a substring test. The other rules are exact."
  },
  {
   "property": "C79",
   "status": "partial",
   "theorems": [
    "Verif.Props.C79_definitions",
    "Verif.Props.C79_expand_partial",
    "Verif.Props.C79_lookbehind_partial",
    "Verif.Props.C79_brackets_violated",
    "Verif.Props.C79_rules_partial",
    "Verif.Props.C79_twice_violated",
    "Verif.Props.C79_total_partial",
    "Verif.Props.C79_undefined_violated"
   ],
   "note": "Proved for angle brackets: exact expansion of every pattern whose texts have no angle brackets, and of patterns with others if no pre/inter/post tag occurs. Violated: other brackets are never recognised, a listed rule without definition aborts loading, a rule listed twice is treated twice."
  },
  {
   "property": "C80",
   "status": "partial",
   "theorems": [
    "Verif.Props.C80_exact_partial",
    "Verif.Props.C80_spelling",
    "Verif.Props.C80_more",
    "Verif.Props.C80_ucs_violated",
    "Verif.Props.C80_plain_violated",
    "Verif.Props.C80_header_partial",
    "Verif.Props.C80_header_violated",
    "Verif.Props.C80_mime_partial",
    "Verif.Props.C80_unset_violated"
   ],
   "note": "The accepted charsets are characterised exactly, and the two reports with them. Violations: UCS-2 and UCS-4 are accepted nowhere (the table says USC); text without charset is accepted nowhere, so that with ok_locales set the header rule holds of every message with a plain ASCII subject; without ok_locales the part rule reports every charset that is not universal. Partial: decode_header is a parameter, upper-casing is ASCII."
  },
  {
   "property": "C81",
   "status": "partial",
   "theorems": [
    "Verif.Props.C81_result_partial",
    "Verif.Props.C81_subject_partial",
    "Verif.Props.C81_bounds",
    "Verif.Props.C81_others_partial",
    "Verif.Props.C81_all_partial",
    "Verif.Props.C81_removes_violated",
    "Verif.Props.C81_order_violated",
    "Verif.Props.C81_control_violated"
   ],
   "note": "Counts and answers are characterised exactly, for one header, for Subject with its exempt sign, and for ALL. Violations: a rule with ALL takes Subject and From away from the message, so that the same rule about Subject then holds of no message; control characters are not counted. Partial: exact fractions for floating point, ASCII lower case."
  },
  {
   "property": "C82",
   "status": "partial",
   "theorems": [
    "Verif.Props.C82_sorted_partial",
    "Verif.Props.C82_single_violated",
    "Verif.Props.C82_ratio_partial",
    "Verif.Props.C82_history_violated",
    "Verif.Props.C82_stable_partial",
    "Verif.Props.C82_double_violated"
   ],
   "note": "Sorted and similar recipients are characterised exactly, after any rules. Violations: a single recipient counts as sorted; with less than five recipients the first rule sees None and later ones zero, so answers depend on order; the ratio of similar pairs can be two. Partial: exact fractions for floating point."
  },
  {
   "property": "C83",
   "status": "partial",
   "theorems": [
    "Verif.Props.C83_shifted_partial",
    "Verif.Props.C83_months_partial",
    "Verif.Props.C83_years_violated",
    "Verif.Props.C83_zone_violated",
    "Verif.Props.C83_exact_violated",
    "Verif.Props.C83_past_violated",
    "Verif.Props.C83_zero_violated",
    "Verif.Props.C83_nodate_violated",
    "Verif.Props.C83_bad_violated",
    "Verif.Props.C83_received_violated",
    "Verif.Props.C83_order_violated"
   ],
   "note": "With dates that are understood, both rules are characterised exactly after any rules (smallest non-zero distance; middle one of the times). Violations: offsets from UTC are dropped; equal dates are passed over; negative upper bounds are never met, zero is no bound; whole years do not count; a missing or bad Date raises the first time and counts as no shift afterwards; the rule about months raises only after a rule about shifts. Partial: date parsing, the clock and counting of months are parameters; whole seconds."
  },
  {
   "property": "C84",
   "status": "partial",
   "theorems": [
    "Verif.Props.C84_counts_partial",
    "Verif.Props.C84_ratio_partial",
    "Verif.Props.C84_qp_violated",
    "Verif.Props.C84_unicode_partial",
    "Verif.Props.C84_unicode_violated",
    "Verif.Props.C84_base64_partial",
    "Verif.Props.C84_base64_violated",
    "Verif.Props.C84_nontext_partial",
    "Verif.Props.C84_rtf_violated",
    "Verif.Props.C84_ascii_partial",
    "Verif.Props.C84_ascii_violated",
    "Verif.Props.C84_boundary_violated",
    "Verif.Props.C84_base64text_violated",
    "Verif.Props.C84_highbits_violated",
    "Verif.Props.C84_highbits_partial",
    "Verif.Props.C84_longline_violated",
    "Verif.Props.C84_raises_violated",
    "Verif.Props.C84_truncated_violated",
    "Verif.Props.C84_truncated_partial",
    "Verif.Props.C84_break_partial",
    "Verif.Props.C84_longest_partial",
    "Verif.Props.C84_lines_partial",
    "Verif.Props.C84_entity_partial",
    "Verif.Props.C84_boundary_partial",
    "Verif.Props.C84_base64text_partial",
    "Verif.Props.C84_unicode_range_partial",
    "Verif.Props.C84_longline_partial",
    "Verif.Props.C84_formime_partial",
    "Verif.Props.C84_formime_flags_partial",
    "Verif.Props.C84_iso_violated",
    "Verif.Props.C84_noratio_violated"
   ],
   "note": "Counts, ratios and flags are given exactly for messages the plugin can cope with, and so are the answers of check_for_mime. It violates the property in many ways: the quoted-printable ratio is always zero, the test for bad ISO charsets never holds because nothing ever sets it, the test for the ratio of text to HTML holds without any HTML, one entity is counted per part, base64 line lengths are added over parts, RTF and related alternatives are flagged, UTF-8 is illegal in plain text, any plain message misses a boundary, base64 images count as text, one high byte counts as a majority, lines without colon are never long, cut headers are looked for in the number of values; a part of type image/html or an encoded multipart makes the check raise."
  },
  {
   "property": "C85",
   "status": "proved",
   "theorems": [
    "Verif.Props.C85_name",
    "Verif.Props.C85_listed",
    "Verif.Props.C85_private",
    "Verif.Props.C85_domains",
    "Verif.Props.C85_sender",
    "Verif.Props.C85_sender_asks",
    "Verif.Props.C85_accreditor",
    "Verif.Props.C85_tags"
   ],
   "note": ""
  },
  {
   "property": "C86",
   "status": "partial",
   "theorems": [
    "Verif.Props.C86_mask_partial",
    "Verif.Props.C86_address_violated",
    "Verif.Props.C86_quiet_partial",
    "Verif.Props.C86_zone_partial",
    "Verif.Props.C86_dash_violated",
    "Verif.Props.C86_raises_violated"
   ],
   "note": "Masks that are numbers work. Masks that are addresses, which is how the lists document them, pass every record of every list, because all of them begin with 127. Zones with a dash in their names are never found. One rule without list makes reading the configuration raise."
  },
  {
   "property": "C87",
   "status": "proved",
   "theorems": [
    "Verif.Props.C87_found",
    "Verif.Props.C87_described",
    "Verif.Props.C87_all",
    "Verif.Props.C87_truncated"
   ],
   "note": "Proved over HTMLParser's events as a parameter; urlparse and unquote are parameters."
  },
  {
   "property": "C88",
   "status": "partial",
   "theorems": [
    "Verif.Props.C88_text_partial",
    "Verif.Props.C88_rest_violated",
    "Verif.Props.C88_link_violated",
    "Verif.Props.C88_blank_violated",
    "Verif.Props.C88_address_violated",
    "Verif.Props.C88_empty_violated",
    "Verif.Props.C88_inside_violated"
   ],
   "note": "Proved for links that contain only text. Violated: the end of any element ends the text of the link; what follows <link> counts as its text; an address urlparse rejects, an attribute without value, or a <link> without address inside of a link raises, and the plugin hook is not protected, so the message cannot be checked."
  },
  {
   "property": "C89",
   "status": "partial",
   "theorems": [
    "Verif.Props.C89_match_partial",
    "Verif.Props.C89_text_violated",
    "Verif.Props.C89_score_violated",
    "Verif.Props.C89_read_partial",
    "Verif.Props.C89_rule_partial",
    "Verif.Props.C89_flags_violated"
   ],
   "note": "Proved for checks of raw, scheme, cleaned and domain. Violated: checks of text and of other keys never pass; flags after the expression are dropped; score, description, priority and tflags of the configuration have no effect."
  },
  {
   "property": "C90",
   "status": "partial",
   "theorems": [
    "Verif.Props.C90_ends",
    "Verif.Props.C90_redirector_partial",
    "Verif.Props.C90_unreadable_violated",
    "Verif.Props.C90_within",
    "Verif.Props.C90_found",
    "Verif.Props.C90_hop",
    "Verif.Props.C90_http_partial",
    "Verif.Props.C90_start_violated",
    "Verif.Props.C90_escaped_violated"
   ],
   "note": "HTTP_REDIR is concrete (Model/Redirect): C90_hop tells exactly which redirection the code sees in an address without line feeds (the first address after the name of the host or, if there is none, the one beginning within it), C90_found when it sees one; termination follows from it. C90_http_partial: for readable addresses the rule holds exactly if an address leads, within one host, to one that redirects to another host. Violated: an address whose redirection urlparse rejects hides all after it; addresses not beginning with http:// or https:// in small letters (www., ftp, HTTP://), which also are in the list, are never seen, nor are escaped ones. urlparse remains a parameter."
  },
  {
   "property": "C91",
   "status": "partial",
   "theorems": [
    "Verif.Props.C91_mismatch_partial",
    "Verif.Props.C91_first_violated"
   ],
   "note": "Proved if all links lead to numbers. Violated: if the first link leads to a named host the rule never holds."
  },
  {
   "property": "C92",
   "status": "partial",
   "theorems": [
    "Verif.Props.C92_free_partial",
    "Verif.Props.C92_domains_partial",
    "Verif.Props.C92_case_violated",
    "Verif.Props.C92_at_violated",
    "Verif.Props.C92_from_partial",
    "Verif.Props.C92_order_violated",
    "Verif.Props.C92_local_violated",
    "Verif.Props.C92_invalid_violated",
    "Verif.Props.C92_first_violated",
    "Verif.Props.C92_body_violated",
    "Verif.Props.C92_wildcard"
   ],
   "note": "Proved where the wildcards make a valid expression, and for the first free mail address in the order of evaluation. Violated: addresses with capital letters in their domain are never free mail (without wildcards); an address with two @ is judged by the middle; the first free mail address that does not match the expression, or one without @, hides all others; an invalid wildcard breaks all of them, for the first message only."
  },
  {
   "property": "C93",
   "status": "proved",
   "theorems": [
    "Verif.Props.C93_body",
    "Verif.Props.C93_order"
   ],
   "note": "Proved for addresses that can be classified without exception, that is, if the wildcards make a valid expression (the expression that finds addresses only gives some with @)."
  },
  {
   "property": "C94",
   "status": "partial",
   "theorems": [
    "Verif.Props.C94_replyto_partial",
    "Verif.Props.C94_reply_violated",
    "Verif.Props.C94_sender_violated",
    "Verif.Props.C94_option_partial"
   ],
   "note": "Both options are described exactly. Violated: with the option reply, a free mail address to reply to counts only if the sender has free mail; without sender of the envelope the rule never holds."
  },
  {
   "property": "C95",
   "status": "partial",
   "theorems": [
    "Verif.Props.C95_exact_partial",
    "Verif.Props.C95_range_partial",
    "Verif.Props.C95_ends_partial",
    "Verif.Props.C95_direction_violated"
   ],
   "note": "The difference is described exactly, and lies where it should for equal and for disjoint alternatives. Violated between these: the code counts words of the HTML that are rarer in the plain text, so words only in the plain text do not count at all, and a plain text all of whose words are in the HTML can make 100 percent."
  },
  {
   "property": "C96",
   "status": "proved",
   "theorems": [
    "Verif.Props.C96_ratio"
   ],
   "note": "Proved for every tree of parts. Numbers are exact where Python uses floating point."
  },
  {
   "property": "C97",
   "status": "partial",
   "theorems": [
    "Verif.Props.C97_ratio_partial",
    "Verif.Props.C97_half_violated",
    "Verif.Props.C97_first_violated"
   ],
   "note": "Proved for texts without successive blank lines that do not begin with one. Violated otherwise: pairs of line breaks are counted without overlap, so that never more than half of the lines count as blank."
  },
  {
   "property": "C98",
   "status": "partial",
   "theorems": [
    "Verif.Props.C98_ratio_partial",
    "Verif.Props.C98_quoted_violated"
   ],
   "note": "Proved for numbers. Violated for bounds in quotes, which are compared with a number as they are: the rule never holds."
  },
  {
   "property": "C99",
   "status": "partial",
   "theorems": [
    "Verif.Props.C99_dns_partial",
    "Verif.Props.C99_nameservers_violated",
    "Verif.Props.C99_plain_partial",
    "Verif.Props.C99_restored_partial",
    "Verif.Props.C99_running_violated",
    "Verif.Props.C99_settings_violated",
    "Verif.Props.C99_rules_violated",
    "Verif.Props.C99_relay_violated"
   ],
   "note": "Proved: without plugins loaded from files and without the plugin for countries of relays saving changes nothing and restoring gives the same context; otherwise the restored context has the same classes. Violated: __getstate__ copies only the outer dictionary, so saving removes the plugins loaded from files, their eval rules and the databases of RelayCountryPlugin from the running context; restored plugins lose their settings and take back eval rules that others had redefined. The DNS interface is restored with the resolver of the system: nameservers and port configured before are lost (C99_nameservers_violated); which queries are sent is the same (C99_dns_partial)."
  },
  {
   "property": "C100",
   "status": "partial",
   "theorems": [
    "Verif.Props.C100_all_partial",
    "Verif.Props.C100_one_partial",
    "Verif.Props.C100_count_violated",
    "Verif.Props.C100_abort_violated"
   ],
   "note": "Proved: if nothing fails every message is processed once, in order, as the options say. Violated: the number printed is the number of paths (count += 1 is outside the inner loop), and one bad file or message ends the script."
  },
  {
   "property": "C101",
   "status": "proved",
   "theorems": [
    "Verif.Props.C101_missing"
   ],
   "note": "Full, for every list of headers."
  },
  {
   "property": "C102",
   "status": "partial",
   "theorems": [
    "Verif.Props.C102_number_partial",
    "Verif.Props.C102_same_violated"
   ],
   "note": "Proved if the headers have different values. Violated: values are put into a set, so headers with the same value count as one, however many there are (C102_same_violated)."
  },
  {
   "property": "C103",
   "status": "partial",
   "theorems": [
    "Verif.Props.C103_exact_partial",
    "Verif.Props.C103_marks_violated",
    "Verif.Props.C103_undecodable_violated"
   ],
   "note": "Exact description proved for subjects that can be decoded, with one mark passed over. Violated: only the first of several marks is passed over, so 'Re: Fwd: \u2026' never counts; a subject that cannot be decoded ends the rule. Which letters are capital is a parameter."
  },
  {
   "property": "C104",
   "status": "partial",
   "theorems": [
    "Verif.Props.C104_address_partial",
    "Verif.Props.C104_user_partial",
    "Verif.Props.C104_other_partial",
    "Verif.Props.C104_reply_violated",
    "Verif.Props.C104_tail_violated"
   ],
   "note": "Exact descriptions of both forms proved. Violated: 'Re: user' is not recognised since the expression is written in small letters and without a flag; the end of any longer word counts if a punctuation mark follows. The subject is the header as it is written, not decoded."
  },
  {
   "property": "C105",
   "status": "partial",
   "theorems": [
    "Verif.Props.C105_different_partial",
    "Verif.Props.C105_reported_partial",
    "Verif.Props.C105_part_violated",
    "Verif.Props.C105_last_violated",
    "Verif.Props.C105_same_partial",
    "Verif.Props.C105_match_partial",
    "Verif.Props.C105_unknown_violated",
    "Verif.Props.C105_contained_violated"
   ],
   "note": "Soundness and, for separate domains, completeness proved. Violated: domains contained in one another are taken to be equal; of several From addresses only the last decides; senders match if none is known, or if one is a part of the other."
  },
  {
   "property": "C106",
   "status": "partial",
   "theorems": [
    "Verif.Props.C106_exact_partial",
    "Verif.Props.C106_juno_violated",
    "Verif.Props.C106_rdns_violated",
    "Verif.Props.C106_claims_violated",
    "Verif.Props.C106_none_violated",
    "Verif.Props.C106_own_partial"
   ],
   "note": "What must be true if a rule holds is proved, and that messages written as the provider writes them are not reported. Violated: Juno messages without X-Originating-IP are always forged; a relay whose name contains yahoo.com suppresses the rule; an address that merely contains it is checked; without Received headers nothing is found. The regular expressions are parameters."
  },
  {
   "property": "C107",
   "status": "partial",
   "theorems": [
    "Verif.Props.C107_named",
    "Verif.Props.C107_count_partial",
    "Verif.Props.C107_coverage_partial",
    "Verif.Props.C107_ratio_partial",
    "Verif.Props.C107_size_partial",
    "Verif.Props.C107_range_partial",
    "Verif.Props.C107_zero_violated",
    "Verif.Props.C107_all_violated",
    "Verif.Props.C107_copy_violated",
    "Verif.Props.C107_raises_violated",
    "Verif.Props.C107_regex_violated"
   ],
   "note": "Names hold as stated. Numbers, areas, ratios, sizes and ranges are proved exactly for images that can be opened, types not called all, and bounds given by usable numbers other than zero. Violated: an upper bound of zero is no bound; a type called all is counted twice; sizes are kept for the type of the first copy only; an image that makes the library raise another exception makes the message impossible to check; image_name_regex is not registered."
  },
  {
   "property": "C108",
   "status": "partial",
   "theorems": [
    "Verif.Props.C108_numbers_partial",
    "Verif.Props.C108_documents_partial",
    "Verif.Props.C108_details_partial",
    "Verif.Props.C108_regex_partial",
    "Verif.Props.C108_order_violated",
    "Verif.Props.C108_detail_violated",
    "Verif.Props.C108_bounds_violated",
    "Verif.Props.C108_broken_violated",
    "Verif.Props.C108_fuzzy_violated"
   ],
   "note": "Numbers, documents, details and names are proved exactly, with bounds as numbers and documents that can be read. Violated: the detail asked for makes no difference; bounds written as texts never hold and an upper bound of zero is none; a document without a name makes pdf_name_regex depend on the order of a set; a broken document makes the message impossible to check; pdf_match_fuzzy_md5 is not registered."
  },
  {
   "property": "C109",
   "status": "proved",
   "theorems": [
    "Verif.Props.C109_holds",
    "Verif.Props.C109_default",
    "Verif.Props.C109_tag",
    "Verif.Props.C109_default_tag",
    "Verif.Props.C109_nothing"
   ],
   "note": "Holds as stated. When the detection raises, as it does for texts without letters, the rule does not hold and the tag is not set."
  },
  {
   "property": "C110",
   "status": "partial",
   "theorems": [
    "Verif.Props.C110_process_partial",
    "Verif.Props.C110_alone_partial",
    "Verif.Props.C110_shared_violated",
    "Verif.Props.C110_taken"
   ],
   "note": "The rules go by the expressions given in the whole process (exact), so the property holds with one configuration per process. Violated: the lists are kept in the class and all configurations share them."
  },
  {
   "property": "C111",
   "status": "partial",
   "theorems": [
    "Verif.Props.C111_exact_partial",
    "Verif.Props.C111_short",
    "Verif.Props.C111_uncased_violated",
    "Verif.Props.C111_shift_violated"
   ],
   "note": "Exact for texts whose characters have an upper case of one character, counting every letter that upper() leaves alone as a capital letter. Violated: letters of scripts without case count as capital letters; after a character such as the sharp s, whose upper case is two characters, capital letters are compared with their neighbours and count as small."
  },
  {
   "property": "C112",
   "status": "partial",
   "theorems": [
    "Verif.Props.C112_exact_partial",
    "Verif.Props.C112_answering_partial",
    "Verif.Props.C112_fail_violated",
    "Verif.Props.C112_asked"
   ],
   "note": "Proved: exactly when the rule holds, the servers asked and the tags. Violated: a server that fails hides what the servers after it know."
  },
  {
   "property": "C113",
   "status": "partial",
   "theorems": [
    "Verif.Props.C113_told_partial",
    "Verif.Props.C113_fail_violated"
   ],
   "note": "Proved if all servers can be reached. Violated: servers after one that fails are not told."
  },
  {
   "property": "C114",
   "status": "partial",
   "theorems": [
    "Verif.Props.C114_first_partial",
    "Verif.Props.C114_once",
    "Verif.Props.C114_again_violated",
    "Verif.Props.C114_failed"
   ],
   "note": "Proved: the program is run once, the first rule is right, and a failing program makes no rule hold. Violated: the return code is kept and read as a truth value, so later rules get the opposite answer."
  },
  {
   "property": "C115",
   "status": "partial",
   "theorems": [
    "Verif.Props.C115_tag_partial",
    "Verif.Props.C115_words_partial",
    "Verif.Props.C115_seen_partial",
    "Verif.Props.C115_forged_violated",
    "Verif.Props.C115_none_violated"
   ],
   "note": "Proved: tag and header are right, and they are all that rules see if the message has no such header or decoded headers are kept. Violated: in lazy mode, the default, a header of the message itself is seen as well; a relay without address makes the message fail."
  },
  {
   "property": "C116",
   "status": "partial",
   "theorems": [
    "Verif.Props.C116_sent_partial",
    "Verif.Props.C116_option_violated",
    "Verif.Props.C116_undated_violated"
   ],
   "note": "Proved: exactly when and what is sent, as the code has it. Violated: dont_report_to_spamcop has no effect on reports, and a message whose first Received header has no date raises."
  },
  {
   "property": "C117",
   "status": "partial",
   "theorems": [
    "Verif.Props.C117_mysql_partial",
    "Verif.Props.C117_pg_partial",
    "Verif.Props.C117_sqlite_partial",
    "Verif.Props.C117_other_partial",
    "Verif.Props.C117_same_violated",
    "Verif.Props.C117_nopassword_violated",
    "Verif.Props.C117_raises_violated"
   ],
   "note": "Proved for MySQL, PostgreSQL, SQLite and URLs. Violated: user and password are not quoted, so different ones give the same URL; a user without password is forgotten; a URL without SQLAlchemy raises."
  },
  {
   "property": "C118",
   "status": "partial",
   "theorems": [
    "Verif.Props.C118_address_partial",
    "Verif.Props.C118_exim_violated"
   ],
   "note": "Proved for public addresses and no other address behind the bracket. Violated: in the form of Exim the client's own name stands behind the address and wins if it is an address in brackets."
  },
  {
   "property": "C119",
   "status": "partial",
   "theorems": [
    "Verif.Props.C119_kept_partial",
    "Verif.Props.C119_unknown_violated",
    "Verif.Props.C119_with_local_violated"
   ],
   "note": "Proved for lines of Postfix servers with ordinary names. Violated: a client that calls itself Unknown/Local is dropped, and so is any header with the words 'with local'."
  },
  {
   "property": "C120",
   "status": "partial",
   "theorems": [
    "Verif.Props.C120_postfix_partial",
    "Verif.Props.C120_header_partial",
    "Verif.Props.C120_unknown_violated",
    "Verif.Props.C120_originating_violated",
    "Verif.Props.C120_sender_violated"
   ],
   "note": "Proved with the real expressions for all ordinary names, however the header is folded. Violated: names with 'unknown' in them are lost; the names X-ORIGINATING-IP and return-path disturb the other fields."
  },
  {
   "property": "C121",
   "status": "partial",
   "theorems": [
    "Verif.Props.C121_by_partial",
    "Verif.Props.C121_last_violated"
   ],
   "note": "Proved if another word follows. Violated: if only the date follows, the name is lost."
  },
  {
   "property": "C122",
   "status": "partial",
   "theorems": [
    "Verif.Props.C122_id_partial",
    "Verif.Props.C122_uid_violated"
   ],
   "note": "Proved for the last 'id '. Violated: the number of a user (uid) behind it is taken instead."
  },
  {
   "property": "C123",
   "status": "partial",
   "theorems": [
    "Verif.Props.C123_v4_partial",
    "Verif.Props.C123_v6_partial",
    "Verif.Props.C123_octets",
    "Verif.Props.C123_host_bits_violated",
    "Verif.Props.C123_host_bits_v6_violated"
   ],
   "note": "Violated by entries with a bit set after the prefix, such as 192.168.1.1/24: ip_network is called in its strict mode, the error is logged as a warning and the entry is stored without a network (C123_host_bits_violated, both families). Without a mask nothing is missing (C123_octets)."
  },
  {
   "property": "C124",
   "status": "partial",
   "theorems": [
    "Verif.Props.C124_host_bits_violated",
    "Verif.Props.C124_short_violated",
    "Verif.Props.C124_octet_violated",
    "Verif.Props.C124_three_octets"
   ],
   "note": "Violated: an entry stored without a network makes every lookup of a non-loopback address raise, so every message with a relay fails; proved for entries with host bits and for one or two octets without a trailing dot (127/8, 172.16)."
  },
  {
   "property": "C125",
   "status": "partial",
   "theorems": [
    "Verif.Props.C125_trusted_partial",
    "Verif.Props.C125_internal_partial",
    "Verif.Props.C125_host_bits_violated"
   ],
   "note": "Violated if an entry has a bit set after its prefix (C125_host_bits_violated): lookups of addresses that no earlier entry is about fail, whatever follows; the others are answered as expected. Without such entries the property holds (C125_trusted_partial, C125_internal_partial)."
  },
  {
   "property": "C126",
   "status": "partial",
   "theorems": [
    "Verif.Props.C126_ends_partial",
    "Verif.Props.C126_url_violated"
   ],
   "note": "The loop over the parts of a domain (bayes.py 849-856) replaces the domain by the character with code 1, because \"\\1\" is not a raw string, and that is never empty: one word such as x.com in the text is enough for tokenise not to return (C126_url_violated, for every number of rounds). C126_ends_partial: it ends if no dot stands before a letter in the texts to read."
  },
  {
   "property": "C127",
   "status": "partial",
   "theorems": [
    "Verif.Props.C127_header_partial",
    "Verif.Props.C127_relays_partial",
    "Verif.Props.C127_mime_partial",
    "Verif.Props.C127_common_partial",
    "Verif.Props.C127_origin",
    "Verif.Props.C127_accents_violated",
    "Verif.Props.C127_joined_partial",
    "Verif.Props.C127_run_violated",
    "Verif.Props.C127_marks_violated",
    "Verif.Props.C127_word_partial",
    "Verif.Props.C127_long_partial",
    "Verif.Props.C127_once",
    "Verif.Props.C127_from_text",
    "Verif.Props.C127_letters_partial",
    "Verif.Props.C127_alphabet_violated"
   ],
   "note": "Proved for words in ASCII. C127_alphabet_violated: letters beyond Latin-1 give no tokens at all, so a Greek or Russian text is as good as empty. Hashing of tokens is not modelled."
  },
  {
   "property": "C128",
   "status": "partial",
   "theorems": [
    "Verif.Props.C128_capital_violated",
    "Verif.Props.C128_small_partial"
   ],
   "note": "The list is compared before lower-casing, so You gives the tokens You and you (C128_capital_violated)."
  },
  {
   "property": "C129",
   "status": "partial",
   "theorems": [
    "Verif.Props.C129_address_violated",
    "Verif.Props.C129_plain_partial"
   ],
   "note": "A word such as j@xyz adds a generator instead of its texts, and encode then raises AttributeError (C129_address_violated)."
  },
  {
   "property": "C130",
   "status": "partial",
   "theorems": [
    "Verif.Props.C130_addresses_violated"
   ],
   "note": "find_all_addrs_in_line yields the first character of the group, so no address is ever found (C130_addresses_violated: the tokens are the same whatever the addresses are)."
  },
  {
   "property": "C131",
   "status": "partial",
   "theorems": [
    "Verif.Props.C131_order_violated"
   ],
   "note": "Of In-Reply-To, References and Message-ID the one that is enumerated last is the value of *MI; the names are in a set of strings."
  },
  {
   "property": "C132",
   "status": "partial",
   "theorems": [
    "Verif.Props.C132_markup_violated",
    "Verif.Props.C132_ignored_partial",
    "Verif.Props.C132_presence"
   ],
   "note": "The list has X-Spam-Status-Version, X-Spam-Flag-Version and so on instead of X-Spam-Status, so the results of an earlier scan are learned (C132_markup_violated)."
  },
  {
   "property": "C133",
   "status": "partial",
   "theorems": [
    "Verif.Props.C133_exact_partial",
    "Verif.Props.C133_found_partial",
    "Verif.Props.C133_lines_violated",
    "Verif.Props.C133_beginning_violated",
    "Verif.Props.C133_dot_violated",
    "Verif.Props.C133_domains_violated",
    "Verif.Props.C133_signer_violated",
    "Verif.Props.C133_default_partial",
    "Verif.Props.C133_default_violated",
    "Verif.Props.C133_empty_violated",
    "Verif.Props.C133_remove_violated"
   ],
   "note": "Exact for the first message of a process (C133_exact_partial); found when listed (C133_found_partial). Violated: only the last line of whitelist_from_dkim counts; an entry covers every address that begins with one it stands for; . is any character; of several domains only the last counts, and it is compared with the author's domain instead of the signer; def_whitelist_from_dkim takes domains for patterns; a blank entry disables the list; removals that name domains do nothing."
  },
  {
   "property": "C134",
   "status": "partial",
   "theorems": [
    "Verif.Props.C134_override_partial",
    "Verif.Props.C134_any",
    "Verif.Props.C134_signed",
    "Verif.Props.C134_many_violated",
    "Verif.Props.C134_discard_violated",
    "Verif.Props.C134_unknown_violated",
    "Verif.Props.C134_inside_violated",
    "Verif.Props.C134_sticky_violated"
   ],
   "note": "Exact for the first message and three overrides at most. Violated: more than three overrides disable the rules; D holds for any author domain that is no entry; U holds whatever the overrides say, and after any hit of another rule never again without an override; overrides apply to every domain that contains theirs."
  },
  {
   "property": "C135",
   "status": "partial",
   "theorems": [
    "Verif.Props.C135_valid_partial",
    "Verif.Props.C135_unnamed_valid_partial",
    "Verif.Props.C135_unnamed_signed_partial",
    "Verif.Props.C135_signed_partial",
    "Verif.Props.C135_named",
    "Verif.Props.C135_inside_violated",
    "Verif.Props.C135_deeper_violated",
    "Verif.Props.C135_single_violated",
    "Verif.Props.C135_signed_violated"
   ],
   "note": "Exact for the first message. Violated: a domain that contains the name counts, names with more labels stand for their last two, names without a dot never count, signatures of other domains than the author's count as none."
  },
  {
   "property": "C136",
   "status": "partial",
   "theorems": [
    "Verif.Props.C136_aol_partial",
    "Verif.Props.C136_undecodable_violated",
    "Verif.Props.C136_gateway_partial",
    "Verif.Props.C136_hidden_violated"
   ],
   "note": "Exact for both rules when all Received headers can be decoded. Violated: a header that cannot be decoded makes the rule raise, which hides the headers after it."
  },
  {
   "property": "C137",
   "status": "partial",
   "theorems": [
    "Verif.Props.C137_lines_partial",
    "Verif.Props.C137_body_violated",
    "Verif.Props.C137_folded_violated"
   ],
   "note": "Exact for the lines of the message. Violated: the lines of the body count, and so does the second line of a folded header that may have anything in it."
  },
  {
   "property": "C138",
   "status": "partial",
   "theorems": [
    "Verif.Props.C138_name_partial",
    "Verif.Props.C138_other",
    "Verif.Props.C138_dots_violated",
    "Verif.Props.C138_envelope_partial",
    "Verif.Props.C138_brackets_violated",
    "Verif.Props.C138_subdomain_violated"
   ],
   "note": "Exact for texts without special characters of expressions, with recipients that are written as an address alone. Violated: the dots of an address stand for any character; recipients in angle brackets and recipients in a domain with two parts before the known ending are never found."
  },
  {
   "property": "C139",
   "status": "partial",
   "theorems": [
    "Verif.Props.C139_hotmail_partial",
    "Verif.Props.C139_evasion_violated",
    "Verif.Props.C139_substring_violated",
    "Verif.Props.C139_groups_partial",
    "Verif.Props.C139_notifications_partial"
   ],
   "note": "Exact when the check of groups comes to an end. Violated: a recipient in a group of MSN with a name in front of the address makes the check raise, so that neither rule ever holds; a domain that only has hotmail.com in its name counts as Hotmail."
  },
  {
   "property": "C140",
   "status": "partial",
   "theorems": [
    "Verif.Props.C140_outlook_partial",
    "Verif.Props.C140_found_partial",
    "Verif.Props.C140_date_violated",
    "Verif.Props.C140_usable"
   ],
   "note": "Both directions for Outlook, exact for usable ids. Violated: without a Date that can be read the rule about Outlook never holds, however far the time of the receipt is."
  },
  {
   "property": "C141",
   "status": "partial",
   "theorems": [
    "Verif.Props.C141_installed_partial",
    "Verif.Props.C141_score_partial",
    "Verif.Props.C141_determined",
    "Verif.Props.C141_text_partial"
   ],
   "note": "Proved for files with includes, sections for plugins (nested in taken parts) and lines for one language, whose lines define rules or set options, where every rule mentioned either has a readable definition of any type (body, rawbody, full, uri, header, mimeheader, meta, eval) or is no rule (undefined, an expression that does not compile, a function that no plugin has), and no meta rule is nested deeper than eleven levels. Functions called by eval rules are assumed to answer by the message alone. C141_installed_partial adds files read first that load plugins (some of which may be missing) and set options; C141_text_partial allows lines that load plugins and set options anywhere between the rules. Missing: mimeheader rules with a priority (it is lost, C04), eval functions that change what other rules see, rules of types that plugins define, deeper nesting (C57)."
  },
  {
   "property": "C142",
   "status": "partial",
   "theorems": [
    "Verif.Props.C142_parts_determined",
    "Verif.Props.C142_wrapped_partial",
    "Verif.Props.C142_type_violated",
    "Verif.Props.C142_line_ends_violated",
    "Verif.Props.C142_headers_violated"
   ],
   "note": "Proved: exactly two parts, found by a reader whatever the lines; the original verbatim unless report_safe is 2; the report verbatim up to line ends if it is ASCII; the headers. Violated: the type is message/rfc882, never message/rfc822; with report_safe 2 every carriage return is lost; HEADERS gives the headers of the original. Missing: readers that allow white space after a delimiter; reports that are not ASCII (base64 is a parameter); folding of long headers (a parameter). How the email package writes the headers is a parameter here, a total function; C185 shows when it fails or breaks them."
  },
  {
   "property": "C143",
   "status": "partial",
   "theorems": [
    "Verif.Props.C143_closed_partial",
    "Verif.Props.C143_learn_error",
    "Verif.Props.C143_scan_error_violated",
    "Verif.Props.C143_stuck_violated",
    "Verif.Props.C143_open_violated",
    "Verif.Props.C143_ignored_error_violated"
   ],
   "note": "Proved for histories without exceptions, and that exceptions in learning do no lasting harm. Violated: an exception in a scan sets a flag for the rest of the process, after which every scan and every learning leaves its connection open; with pymysql an ignored message after a scanned one raises."
  },
  {
   "property": "C144",
   "status": "partial",
   "theorems": [
    "Verif.Props.C144_ignored_partial",
    "Verif.Props.C144_not_scored",
    "Verif.Props.C144_unanchored_violated",
    "Verif.Props.C144_star_violated",
    "Verif.Props.C144_space_violated"
   ],
   "note": "Proved: for entries without wildcards, which messages are left out, and that these are not scored. Violated: entries are unanchored expressions; one that begins with * ends every scan with an exception; an entry after a comma and a space is never found. Missing: entries with other special characters (the engine is a parameter)."
  },
  {
   "property": "C145",
   "status": "partial",
   "theorems": [
    "Verif.Props.C145_summary_partial",
    "Verif.Props.C145_made_partial",
    "Verif.Props.C145_read_only_violated",
    "Verif.Props.C145_limit_violated",
    "Verif.Props.C145_shown"
   ],
   "note": "Proved: the numbers for all sequences of rules; the tags exist if no scan raised. Violated: with a database that cannot be written, every message that would be scored ends the check with a KeyError; all tokens are listed, not five. The order of the tokens is that of a Python set and is left open."
  },
  {
   "property": "C146",
   "status": "partial",
   "theorems": [
    "Verif.Props.C146_found",
    "Verif.Props.C146_number_partial",
    "Verif.Props.C146_hash_violated",
    "Verif.Props.C146_mark_violated",
    "Verif.Props.C146_parenthesis_violated"
   ],
   "note": "Proved for every subject of one line without five digits in a row (C146_found), and for numbers of seven or more digits in subjects with ordinary spacing. Violated: behind # the number is a comment of the expression, so that one of the words anywhere suffices; a mark before the number is taken to be part of it and the announcement is missed; an opening parenthesis makes the expression invalid. Missing: other identifiers with long numbers."
  },
  {
   "property": "C147",
   "status": "partial",
   "theorems": [
    "Verif.Props.C147_separator_partial",
    "Verif.Props.C147_headers_only",
    "Verif.Props.C147_lines_violated",
    "Verif.Props.C147_blank_violated",
    "Verif.Props.C147_flags"
   ],
   "note": "Proved for header lines and a first line without the odd line breaks of Unicode (\\v, \\f, \\x1c-\\x1e, \\x85, U+2028, U+2029). Violated for these: a form feed in a header can make a message with the empty line look as if it lacked it; and for a first body line of white space such as no-break spaces, which is taken for the empty line."
  },
  {
   "property": "C148",
   "status": "partial",
   "theorems": [
    "Verif.Props.C148_same_entry_partial",
    "Verif.Props.C148_bad_mask",
    "Verif.Props.C148_unsigned",
    "Verif.Props.C148_equals_violated",
    "Verif.Props.C148_tab_violated",
    "Verif.Props.C148_case_violated"
   ],
   "note": "Violated by signatures with blanks before '=' (the domain is not found), by a tab after the domain (kept as part of it) and, with a database that compares letters exactly, by addresses that differ only in letter case (separate entries). The partial theorem covers every message whose signature is written without these."
  },
  {
   "property": "C149",
   "status": "partial",
   "theorems": [
    "Verif.Props.C149_private_case",
    "Verif.Props.C149_private",
    "Verif.Props.C149_found_partial",
    "Verif.Props.C149_alone_partial",
    "Verif.Props.C149_mapped_partial",
    "Verif.Props.C149_ffff_violated",
    "Verif.Props.C149_valid_partial",
    "Verif.Props.C149_upper_violated",
    "Verif.Props.C149_mapped_private_partial",
    "Verif.Props.C149_mapped_gap_violated"
   ],
   "note": "Violated: 1::ffff:2 loses its middle; an address with capital letters is never read whole; 0:0::0:0:ffff:10.1.2.3 counts as public. The address must stand in brackets."
  },
  {
   "property": "C150",
   "status": "partial",
   "theorems": [
    "Verif.Props.C150_ignored",
    "Verif.Props.C150_header",
    "Verif.Props.C150_fetchmail_violated"
   ],
   "note": "The equivalence is proved for all headers (C150_ignored, C150_header). Violated: a fetchmail line that gives the name of the host without its address is not ignored."
  },
  {
   "property": "C151",
   "status": "proved",
   "theorems": [
    "Verif.Props.C151_helo",
    "Verif.Props.C151_header",
    "Verif.Props.C151_unique"
   ],
   "note": "Complete for all lines whose only white space are blanks, which is every header the parser reads (C151_header)."
  },
  {
   "property": "C152",
   "status": "proved",
   "theorems": [
    "Verif.Props.C152_rdns",
    "Verif.Props.C152_header",
    "Verif.Props.C152_unique"
   ],
   "note": "Complete, as C151. RDNS_SMTP, RDNS_SMTP1 and RDNS_RE1 are proved to be dead code (Lemmas/Rdns.lean)."
  },
  {
   "property": "C153",
   "status": "partial",
   "theorems": [
    "Verif.Props.C153_by",
    "Verif.Props.C153_ident",
    "Verif.Props.C153_id",
    "Verif.Props.C153_header",
    "Verif.Props.C153_by_partial",
    "Verif.Props.C153_by_violated",
    "Verif.Props.C153_by_end_violated",
    "Verif.Props.C153_id_violated"
   ],
   "note": "The exact answers are proved (C153_by, C153_ident, C153_id). Violated: in 'client [ip] by server [ip]' the server is given as its address (C153_by_violated); a server that is the last word of the line is not found (C153_by_end_violated); the number is what follows the last 'id ', even inside another word such as userid (C153_id_violated). C153_by_partial leaves these lines out."
  },
  {
   "property": "C154",
   "status": "proved",
   "theorems": [
    "Verif.Props.C154_envfrom",
    "Verif.Props.C154_auth",
    "Verif.Props.C154_header",
    "Verif.Props.C154_none"
   ],
   "note": "Complete, as C151."
  },
  {
   "property": "C155",
   "status": "partial",
   "theorems": [
    "Verif.Props.C155_serial_partial",
    "Verif.Props.C155_senders_partial",
    "Verif.Props.C155_counts_partial",
    "Verif.Props.C155_lost_violated",
    "Verif.Props.C155_no_waiting"
   ],
   "note": "Serialisable for every schedule in which no other check of the same sender finishes between the two steps of a check (so for all schedules of checks of different senders), with checks stopped anywhere. Fails otherwise: when any number of checks of one sender and network have read before the first writes, only one message is counted (C155_lost_violated, for every table). The statements of merge and commit are taken as one step of the database."
  },
  {
   "property": "C156",
   "status": "partial",
   "theorems": [
    "Verif.Props.C156_rest_partial",
    "Verif.Props.C156_serial_partial",
    "Verif.Props.C156_crash_partial",
    "Verif.Props.C156_crash_violated",
    "Verif.Props.C156_twice_violated"
   ],
   "note": "For a store that does what learning expects (the two stores of the code do not, C45 and C46): for every interleaving of calls about different messages the result is the one of the calls one after the other, and running what calls have left is invariant, so a dead process misses just its own rest. Fails when processes learn the same message at once, which counts it once for each (C156_twice_violated, any number, any order after the lookups), and when a process dies between counting and recording (C156_crash_violated). One method of a store is taken as one step."
  },
  {
   "property": "C157",
   "status": "partial",
   "theorems": [
    "Verif.Props.C157_nothing_between",
    "Verif.Props.C157_kept_partial",
    "Verif.Props.C157_in_force",
    "Verif.Props.C157_reload_partial",
    "Verif.Props.C157_stale_violated",
    "Verif.Props.C157_lost_violated",
    "Verif.Props.C157_gate_violated",
    "Verif.Props.C157_nested_violated"
   ],
   "note": "C157_in_force, C157_nothing_between hold; C157_kept_partial and C157_reload_partial need that no reload falls between copying the definitions and keeping the ruleset, or into another reload: C157_stale_violated, C157_lost_violated, C157_gate_violated, C157_nested_violated show what happens then, for every configuration."
  },
  {
   "property": "C158",
   "status": "partial",
   "theorems": [
    "Verif.Props.C158_id_alphabet",
    "Verif.Props.C158_id_plain",
    "Verif.Props.C158_exim_id",
    "Verif.Props.C158_sendmail_id",
    "Verif.Props.C158_outlook_id",
    "Verif.Props.C158_received_words",
    "Verif.Props.C158_received_plain_partial",
    "Verif.Props.C158_received_id_violated",
    "Verif.Props.C158_received_date_partial",
    "Verif.Props.C158_content_words",
    "Verif.Props.C158_content_plain",
    "Verif.Props.C158_separators_violated"
   ],
   "note": "Violated: an Exim id in a Received header leaves its last two parts as words (C158_received_id_violated); every run of separators in a boundary becomes U+0001 (C158_separators_violated). Partial: values without ids and without colons, and a complete date with a numeric zone at the end of a value; zone names such as (UTC) after the date are not covered."
  },
  {
   "property": "C159",
   "status": "partial",
   "theorems": [
    "Verif.Props.C159_unseen",
    "Verif.Props.C159_neutral",
    "Verif.Props.C159_hammy_least",
    "Verif.Props.C159_hammy_more",
    "Verif.Props.C159_hammy_enough",
    "Verif.Props.C159_spammy_least",
    "Verif.Props.C159_spammy_more",
    "Verif.Props.C159_spammy_violated"
   ],
   "note": "Violated for spammy tokens: the distance can be one too small (C159_spammy_violated). For hammy tokens the number itself suffices up to two millionths of probability (C159_hammy_enough). Exact arithmetic instead of floats."
  },
  {
   "property": "C160",
   "status": "partial",
   "theorems": [
    "Verif.Props.C160_class",
    "Verif.Props.C160_missing_partial",
    "Verif.Props.C160_others_partial",
    "Verif.Props.C160_raises",
    "Verif.Props.C160_names_partial",
    "Verif.Props.C160_overwritten_violated",
    "Verif.Props.C160_missing_violated"
   ],
   "note": "Violated: happy.py and hac.py are the same module ha, osc.py runs in Python's module os (C160_overwritten_violated), and a class that a file does not define is taken from another file (C160_missing_violated). Holds if the name of the module is not taken."
  },
  {
   "property": "C161",
   "status": "partial",
   "theorems": [
    "Verif.Props.C161_defaults",
    "Verif.Props.C161_places",
    "Verif.Props.C161_ends",
    "Verif.Props.C161_serves",
    "Verif.Props.C161_action_partial",
    "Verif.Props.C161_action_violated",
    "Verif.Props.C161_tell_violated",
    "Verif.Props.C161_pidfile_partial",
    "Verif.Props.C161_left_violated",
    "Verif.Props.C161_removed_violated",
    "Verif.Props.C161_log_file",
    "Verif.Props.C161_show_unknown_violated"
   ],
   "note": "Violated: --allow-tell has no effect; reload and stop need directories with rules; a daemon that can not bind leaves its pid file; a server in the foreground removes the pid file of a running daemon; --show-unknown shows nothing in scripts without log file. argparse and spoon are not modelled."
  },
  {
   "property": "C162",
   "status": "partial",
   "theorems": [
    "Verif.Props.C162_supported_partial",
    "Verif.Props.C162_pypy",
    "Verif.Props.C162_later_violated",
    "Verif.Props.C162_version_violated",
    "Verif.Props.C162_moment_partial",
    "Verif.Props.C162_done_partial",
    "Verif.Props.C162_lost_violated",
    "Verif.Props.C162_mixed_violated",
    "Verif.Props.C162_tail_violated",
    "Verif.Props.C162_exits",
    "Verif.Props.C162_parsed",
    "Verif.Props.C162_restored",
    "Verif.Props.C162_files_violated",
    "Verif.Props.C162_report_violated",
    "Verif.Props.C162_compiles"
   ],
   "note": "Fails in part: a compilation that fails or is killed destroys the rules compiled before; two at once can leave a file that is neither; missing or damaged files and missing configuration files end the script. pickle is a parameter with two laws."
  },
  {
   "property": "C163",
   "status": "partial",
   "theorems": [
    "Verif.Props.C163_kept",
    "Verif.Props.C163_scores",
    "Verif.Props.C163_scan",
    "Verif.Props.C163_touched",
    "Verif.Props.C163_back_violated",
    "Verif.Props.C163_users_violated"
   ],
   "note": "Counts and results are never changed by checks. Access times can be set back, for all users; with several users in the table SQLAlchemy raises."
  },
  {
   "property": "C164",
   "status": "partial",
   "theorems": [
    "Verif.Props.C164_order",
    "Verif.Props.C164_complete_partial",
    "Verif.Props.C164_start_violated",
    "Verif.Props.C164_before_violated",
    "Verif.Props.C164_end_violated",
    "Verif.Props.C164_inhibit"
   ],
   "note": "Any exception in a hook leaves the check (violated): before the rules no rule is evaluated, after them the result is lost and nothing is learned. Order, at-most-once and completeness without exceptions are proved for all plugins."
  },
  {
   "property": "C165",
   "status": "partial",
   "theorems": [
    "Verif.Props.C165_answer_partial",
    "Verif.Props.C165_verdict_partial",
    "Verif.Props.C165_subject_violated"
   ],
   "note": "End to end, for rule files as in C141_text_partial, which may load plugins between the rules, and well-formed requests with ASCII messages that can be read. Missing: everything C141 leaves out, messages with other characters (C38_split_violated), compressed messages (C38_zlib_violated), rules of users, and the reports and rewritten messages of the other commands (C06, C07 and C08 are about them). A subject that cannot be decoded gets no answer (C165_subject_violated)."
  },
  {
   "property": "C166",
   "status": "partial",
   "theorems": [
    "Verif.Props.C166_parsed",
    "Verif.Props.C166_restored_partial",
    "Verif.Props.C166_edns_violated",
    "Verif.Props.C166_zones_violated",
    "Verif.Props.C166_usable"
   ],
   "note": "C166_restored_partial: whatever could be parsed can be restored, and every check of every message gives the same; the networks, DNS availability, restrictions, servers and port are the same, and zones on which the rules agree. Violated: the EDNS payload set after parsing is on the resolver, which is not saved, and is not set again (C166_edns_violated); zones are recomputed from the rules in order of priority instead of the order of the files, so a zone that two rules define differently can change (C166_zones_violated)."
  },
  {
   "property": "C167",
   "status": "partial",
   "theorems": [
    "Verif.Props.C167_starts_partial",
    "Verif.Props.C167_blank_violated",
    "Verif.Props.C167_addresses_partial",
    "Verif.Props.C167_named_partial",
    "Verif.Props.C167_unknown",
    "Verif.Props.C167_relay_violated",
    "Verif.Props.C167_whitelist_partial",
    "Verif.Props.C167_forged_partial",
    "Verif.Props.C167_domains",
    "Verif.Props.C167_uris_partial",
    "Verif.Props.C167_lines_violated"
   ],
   "note": "Proved from the lines of the configuration to the result of every rule, for any rules before it and any number of messages before: address lists hold all words of all lines and reach the rule (and addresses) they are documented for. Violated: of several lines for whitelist_from_rcvd, def_whitelist_from_rcvd, enlist_uri_host, delist_uri_host, whitelist_uri_host and blacklist_uri_host only the last counts (C167_lines_violated); an enlist_uri_host line with an empty element, such as one that ends in a comma, makes the check of every message raise (C167_blank_violated); check_from_in_list with whitelist_from_rcvd does not look at relays (C167_relay_violated). What an entry stands for is C66, C68 and C70."
  },
  {
   "property": "C168",
   "status": "partial",
   "theorems": [
    "Verif.Props.C168_report_partial",
    "Verif.Props.C168_percent_violated",
    "Verif.Props.C168_options",
    "Verif.Props.C168_calm",
    "Verif.Props.C168_rules"
   ],
   "note": "Proved for templates without percent signs and double underscores (C60). The main configuration meets the condition on options if the numbers in the files can be read (C168_calm, C168_rules). A single percent sign in the template makes the answer break off after the verdict, whatever the rules (C168_percent_violated). TESTSSCORES shows the results of the rules, not their scores, as in C61. The files may load plugins between the rules, as in C141_text_partial."
  },
  {
   "property": "C169",
   "status": "partial",
   "theorems": [
    "Verif.Props.C169_process_partial",
    "Verif.Props.C169_percent_violated"
   ],
   "note": "C169_process_partial: the additions come before the removals whatever the order of the lines (C56), and tags in templates without percent signs. A percent sign breaks the answer off (C169_percent_violated). What the wrapping message looks like is C142. The files may load plugins between the rules, as in C141_text_partial. How the email package writes the headers is a parameter here, a total function; C185 shows when it fails or breaks them."
  },
  {
   "property": "C170",
   "status": "partial",
   "theorems": [
    "Verif.Props.C170_files",
    "Verif.Props.C170_file_scalar",
    "Verif.Props.C170_file_append",
    "Verif.Props.C170_file_stops",
    "Verif.Props.C170_file_main",
    "Verif.Props.C170_since_load",
    "Verif.Props.C170_scalar",
    "Verif.Props.C170_append",
    "Verif.Props.C170_taken_violated",
    "Verif.Props.C170_claimed",
    "Verif.Props.C170_one_holder",
    "Verif.Props.C170_reload_violated",
    "Verif.Props.C170_tlds_violated"
   ],
   "note": "Proved: what a plugin's options are after any configuration, when no plugin asked before it has an option of that name (C170_since_load, C170_scalar, C170_append); who claims a line (C170_claimed); that one holder changes at most (C170_one_holder); the same for configuration files, with includes, sections and languages, that are read without an exception (C170_files, C170_file_scalar, C170_file_append, C170_file_main), and that a line that cannot be read ends the reading after what stood before it (C170_file_stops). Violated: an option that an earlier loaded plugin has too never reaches the later one (C170_taken_violated; C170_tlds_violated for HeaderEval and FreeMail of this code base); appended values survive loading the plugin again (C170_reload_violated). Missing: plugins loaded from a path, WhiteListSubjectPlugin, which overrides parse_config."
  },
  {
   "property": "C171",
   "status": "partial",
   "theorems": [
    "Verif.Props.C171_spam_partial",
    "Verif.Props.C171_ham_violated",
    "Verif.Props.C171_local_violated",
    "Verif.Props.C171_remote_violated",
    "Verif.Props.C171_forget_violated",
    "Verif.Props.C171_both_violated",
    "Verif.Props.C171_deaf_violated",
    "Verif.Props.C171_nothing",
    "Verif.Props.C171_failure_violated",
    "Verif.Props.C171_database_violated",
    "Verif.Props.C171_late_violated"
   ],
   "note": "C171_spam_partial: spam recorded both here and elsewhere is learned and reported as asked. Violated (for every installation that works): good mail is learned and reported as spam (C171_ham_violated), 'local' only tells the services too, 'remote' only trains the classifier too, Remove trains as ham instead of forgetting; what is done never depends on the class or the places (C171_deaf_violated); a plugin that fails keeps the later ones from acting and the answer from being given (C171_failure_violated); in particular, with the databases of the code no message that is not on record can be reported (C171_database_violated), and a client that asks for both halves is told of neither although the first was done (C171_late_violated)."
  },
  {
   "property": "C172",
   "status": "partial",
   "theorems": [
    "Verif.Props.C172_asked_partial",
    "Verif.Props.C172_order_violated"
   ],
   "note": "C172_asked_partial: with files in the grammar of C141, a rule that calls one of twelve functions (redirections, missing recipients, numbers of headers, illegal characters, capitals in subjects, recipients in subjects, placeholders, two kinds of forged Received lines, white space, empty lines, terms of the stock market) with literal arguments has the value 1 exactly when the function's condition holds of the message, and 0 otherwise, in any order of the rules. C172_order_violated: check_illegal_chars('ALL', ...) is different: after it no rule counts subjects any more. Missing: the other functions, and the messages on which the single functions go wrong (C81, C90, C97, C102 and C173 list those)."
  },
  {
   "property": "C173",
   "status": "partial",
   "theorems": [
    "Verif.Props.C173_least",
    "Verif.Props.C173_words_partial",
    "Verif.Props.C173_inside_violated",
    "Verif.Props.C173_phrase_violated"
   ],
   "note": "C173_least: at least as many terms are counted as there are words with a term in them. C173_words_partial: the rule holds exactly if that number is large enough, where no word has several terms one after the other. Violated: a term within a longer word counts ('operating', 'accompany', C173_inside_violated), a term written as two words ('Opening Price') does not (C173_phrase_violated). Non-ASCII characters that re.I takes for s or k are not modelled."
  },
  {
   "property": "C174",
   "status": "partial",
   "theorems": [
    "Verif.Props.C174_local_partial",
    "Verif.Props.C174_added_partial",
    "Verif.Props.C174_score_violated"
   ],
   "note": "C174_local_partial: results of the common rules; C174_added_partial: the score. Partial: both configurations are in the grammar of C141 and the functions they ask answer from the message alone. Violated without this: C174_score_violated, a score that is no number in any rule means that no rule is there and no message can be checked."
  },
  {
   "property": "C175",
   "status": "partial",
   "theorems": [
    "Verif.Props.C175_order_partial",
    "Verif.Props.C175_rounding_violated"
   ],
   "note": "C175_order_partial: the same results for every order of lines, files and priorities, and the same score if the order of addition does not matter. Violated without this: C175_rounding_violated, 0.1, 0.2 and 0.3 as doubles add up to 0.6000000000000001 or 0.6. Partial: the grammar of C141, functions of plugins that answer from the message alone."
  },
  {
   "property": "C176",
   "status": "partial",
   "theorems": [
    "Verif.Props.C176_same",
    "Verif.Props.C176_list",
    "Verif.Props.C176_file_violated",
    "Verif.Props.C176_missing_violated",
    "Verif.Props.C176_self_partial",
    "Verif.Props.C176_quiet"
   ],
   "note": "The list has exactly one entry per level with the right line numbers and texts (C176_list). Violated: entries name the included file, not the file in which the line stands (C176_file_violated, C176_missing_violated); they are right for a file that includes only itself (C176_self_partial)."
  },
  {
   "property": "C177",
   "status": "partial",
   "theorems": [
    "Verif.Props.C177_same",
    "Verif.Props.C177_exact",
    "Verif.Props.C177_where",
    "Verif.Props.C177_once_partial",
    "Verif.Props.C177_repeated_violated"
   ],
   "note": "Which complaints are made, and for which file, line number and text, is exact in both modes (C177_exact, C177_where). Violated in paranoid mode: a missing argument in an included file is reported once for every level of includes (C177_repeated_violated); once per line is proved for files without includes. The log level and the wording are not modelled."
  },
  {
   "property": "C178",
   "status": "partial",
   "theorems": [
    "Verif.Props.C178_expired_violated",
    "Verif.Props.C178_checked_violated"
   ],
   "note": "Violated for every history: nothing in the plugin or the stores removes a token, and bayes_auto_expire is never read. There is no positive part to prove; what a check may change is C163."
  },
  {
   "property": "C179",
   "status": "partial",
   "theorems": [
    "Verif.Props.C179_key_partial",
    "Verif.Props.C179_first_partial",
    "Verif.Props.C179_foreign_partial",
    "Verif.Props.C179_missing_violated",
    "Verif.Props.C179_bytes_violated",
    "Verif.Props.C179_restricted_violated"
   ],
   "note": "Proved: which text the library gets as a key, for all answers, and that the first rule of a process holds only with it. Violated: every failed lookup ends in an AttributeError that no handler expects, and from then on all rules hold; with byte strings of newer libraries every lookup does; dkimpy asks for names with a dot at the end, to which restrictions do not apply."
  },
  {
   "property": "C180",
   "status": "partial",
   "theorems": [
    "Verif.Props.C180_honest",
    "Verif.Props.C180_host_partial",
    "Verif.Props.C180_preference_violated",
    "Verif.Props.C180_retry_violated",
    "Verif.Props.C180_none_violated",
    "Verif.Props.C180_quoted_violated",
    "Verif.Props.C180_helo_violated",
    "Verif.Props.C180_report"
   ],
   "note": "Proved: the answer is that of the server and what is sent is the report; for plain addresses it goes to the first record. Violated for all inputs: preference (C180_preference_violated), no second try (C180_retry_violated), no records (C180_none_violated), quoted at signs (C180_quoted_violated), HELO (C180_helo_violated)."
  },
  {
   "property": "C181",
   "status": "partial",
   "theorems": [
    "Verif.Props.C181_senders",
    "Verif.Props.C181_rule_partial",
    "Verif.Props.C181_unreadable_violated"
   ],
   "note": "C181_senders: the addresses are exactly the senders of the specification, after any accesses. C181_rule_partial: the rule without an expression. Violated: a header among these that can not be decoded (get_decoded_header gives no text, or getaddresses raises) makes the rule false whatever the other senders are (C181_unreadable_violated)."
  },
  {
   "property": "C182",
   "status": "partial",
   "theorems": [
    "Verif.Props.C182_from_partial",
    "Verif.Props.C182_to_partial",
    "Verif.Props.C182_resent_violated",
    "Verif.Props.C182_unreadable_violated",
    "Verif.Props.C182_configured_partial",
    "Verif.Props.C182_recipients_partial"
   ],
   "note": "C182_from_partial, C182_to_partial: messages without Resent headers whose headers can be read. C182_configured_partial: from the lines of the configuration to the answer (with C167). Violated: a Resent-From header with any unlisted address takes a listed From off blacklist_from (C182_resent_violated), and so does a From or Resent-From header that can not be decoded (C182_unreadable_violated). What an entry stands for is C66."
  },
  {
   "property": "C183",
   "status": "partial",
   "theorems": [
    "Verif.Props.C183_one_partial",
    "Verif.Props.C183_second_violated",
    "Verif.Props.C183_hidden_violated",
    "Verif.Props.C183_reply_violated"
   ],
   "note": "C183_one_partial: one header of the name. Violated: later headers of the name are not looked at (C183_second_violated), so that an empty first one or one without free mail hides them (C183_hidden_violated), also for Reply-To (C183_reply_violated); check_freemail_from does look at all of them (C181, example)."
  },
  {
   "property": "C184",
   "status": "partial",
   "theorems": [
    "Verif.Props.C184_clean_partial",
    "Verif.Props.C184_wrapped_partial",
    "Verif.Props.C184_protected_partial",
    "Verif.Props.C184_forged_violated"
   ],
   "note": "Marks of the lines only are proved when the message has none of its own, when spam is wrapped, and for names that are removed from all messages and added for one verdict. Otherwise the property fails: marks the sender wrote are delivered, before those of the scanner (C184_forged_violated), because removal is only done when a remove_header line asks for it."
  },
  {
   "property": "C185",
   "status": "partial",
   "theorems": [
    "Verif.Props.C185_kept_partial",
    "Verif.Props.C185_marked_partial",
    "Verif.Props.C185_report_violated",
    "Verif.Props.C185_preview_violated",
    "Verif.Props.C185_header_violated",
    "Verif.Props.C185_subject_violated"
   ],
   "note": "Proved for headers with proper names whose values have no line breaks but those of folding (C185_kept_partial), so for every message with such headers that gets marks on one line (C185_marked_partial). Violated by every sender who writes a form feed before a visible character in any header, whatever the configuration, unless the message is wrapped (C185_header_violated), and in the subject even if it is wrapped (C185_subject_violated); with add_header lines that show _PREVIEW_, by a form feed in the text (C185_preview_violated); and whenever report_safe is 0, a rule matches and no remove_header line takes X-Spam-Report away (C185_report_violated). In each case there is no message at all, or the headers end there and later marks fall into the body. Missing: folding of long values, values that are not ASCII, messages with parts."
  }
 ]
}