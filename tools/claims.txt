# property|status|theorems|note
C01|proved|Cskk.Props.KeyInput.release_inert Cskk.Props.KeyInput.releases_make_no_difference|
C02|proved|Cskk.Props.KeyInput.modified_without_command_inert Cskk.Props.KeyInput.locks_disable_input Cskk.Props.ShiftKey.shifted_letter Cskk.Props.ShiftKey.shifted_sign Cskk.Props.ShiftKey.azik_brace|
C03|proved|Cskk.Props.Output.poll_returns_pending Cskk.Props.Output.poll_changes_only_output Cskk.Props.Output.second_poll_returns_nothing Cskk.Props.Output.retrieve_is_pure Cskk.Props.Output.poll_and_preedit Cskk.Props.Output.polls_do_not_matter Cskk.Props.Output.polls_do_no_harm Cskk.Props.Output.schedules_deliver_the_same Cskk.Props.Output.typing_delivered_exactly_once Cskk.Props.Output.backspace_erases_undelivered_text|
C04|proved|Cskk.Props.Levels.depth_bounded Cskk.Props.Levels.levels_shape Cskk.Props.Levels.preedit_nested Cskk.Props.Levels.nest_brackets Cskk.Props.Levels.preedit_brackets Cskk.Props.Levels.default_rule_sensible Cskk.Props.Levels.azik_rule_sensible|
C05|proved|Cskk.Props.Levels.reset_result Cskk.Props.Levels.reset_behaves_as_new Cskk.Props.Levels.reset_in_other_mode Cskk.Props.Levels.reset_while_composing Cskk.Props.Levels.reset_in_registration Cskk.Props.Levels.stuck_forever Cskk.Props.Levels.stuck_panics Cskk.Props.Levels.stuck_step Cskk.Props.Levels.stuck_is_reached|
C06|proved|Cskk.Props.CandList.cursor_in_range_checked Cskk.Props.CandList.cursor_in_range_guarded Cskk.Props.CandList.forward_at_end Cskk.Props.CandList.forward_moves Cskk.Props.CandList.backward_forward Cskk.Props.CandList.hasNext_iff_forward Cskk.Props.CandList.forward_empty_panics Cskk.Props.CandList.forward_empty_wraps Cskk.Props.CandList.add_nothing_breaks_cursor Cskk.Props.Cursor.cursor_points_to_candidate Cskk.Props.Cursor.relookup_registration_breaks_cursor|list level and every history of the context; the exception (registering a word with #4) is a theorem too
C07|proved|Cskk.Props.Candidates.offered_words Cskk.Props.Candidates.offered_words_numeric Cskk.Props.Candidates.relookup_words Cskk.Props.Candidates.dedup_spec Cskk.Props.Candidates.numeric_duplicates Cskk.Props.Merge.offered_exactly|
C08|proved|Cskk.Props.UserDict.confirm_moves_to_front Cskk.Props.UserDict.confirm_changes_nothing_else Cskk.Props.UserDict.confirmed_first Cskk.Props.Candidates.confirmed_offered_first Cskk.Props.UserDict.confirm_is_a_swap Cskk.Props.Candidates.confirmed_word_not_first Cskk.Props.NumericOffer.template_learned Cskk.Props.WordCycle.offered_after_confirm Cskk.Props.WordCycle.confirm_cycle|violations of the merged order shown as witnesses
C09|proved|Cskk.Props.UserDict.purge_removes Cskk.Props.UserDict.purge_changes_nothing_else Cskk.Props.UserDict.purged_not_listed Cskk.Props.Candidates.purged_not_answered Cskk.Props.UserDict.wf_history Cskk.Props.UserDict.purge_duplicate_survives Cskk.Props.UserDict.purge_keeps_other_okuri Cskk.Props.WordCycle.offered_after_purge Cskk.Props.WordCycle.purged_gone Cskk.Props.WordCycle.purge_cycle|
C10|proved|Cskk.Props.UserDict.read_only_unchanged Cskk.Props.ContextDicts.static_never_modified Cskk.Props.ContextDicts.dictionaries_only_edited Cskk.Props.ContextDicts.dictionary_count Cskk.Props.ContextDicts.dictionaries_stay_well_formed|
C11|proved|Cskk.Props.Lru.container_refines Cskk.Props.Lru.container_results Cskk.Props.Lru.iter_rev_wrong Cskk.Props.Lru.both_ends Cskk.Props.Lru.fronts_ideal Cskk.Props.Lru.back_wrong Cskk.Props.Lru.sorted_back_panics|heap-pointer model of LruOrderedMap refined to a list-with-recency spec
C12|proved|Cskk.Props.DictSave.save_load_same_words Cskk.Props.DictSave.load_saved Cskk.Props.DictSave.save_then_open Cskk.Props.DictFile.line_round_trip Cskk.Props.DictSave.unencodable_dropped Cskk.Props.DictSave.reload_reverses_order Cskk.Props.DictSave.odd_okuri_ari_moves Cskk.Props.DictFile.bracket_loses_line Cskk.Props.DictFile.emptied_group_misread|conditions of representability are explicit; what happens outside them is shown by witnesses
C13|proved|Cskk.Props.DictFile.escape_round_trip Cskk.Props.DictFile.escape_no_separator Cskk.Props.DictFile.adjacent_separators_lost Cskk.Props.DictFile.backslash_lost Cskk.Props.DictFile.lookalike_reinterpreted|
C14|proved|Cskk.Props.DictSave.crash_keeps_old Cskk.Props.DictSave.missing_file_untouched Cskk.Props.DictSave.saveOps_complete Cskk.Props.DictSave.second_save_loses_backup Cskk.Props.DictSave.crash_between_rename_and_create|
C15|proved|Cskk.Props.DictSave.malformed_line_ignored Cskk.Props.DictSave.malformed_text_ignored Cskk.Props.DictSave.no_blank_malformed Cskk.Props.DictSave.lenient_line Cskk.Props.Filing.loaded_exactly Cskk.Props.DictGrammar.plain_line_iff Cskk.Props.FileLines.file_exactly|
C16|proved|Cskk.Props.Numeric.simple_kanji_reads_back Cskk.Props.Numeric.simple_kanji_too_large Cskk.Props.Numeric.simple_kanji_injective|
C17|proved|Cskk.Props.Numeric.daiji_reads_back Cskk.Props.Numeric.daiji_too_large Cskk.Props.Numeric.daiji_injective|
C18|proved|Cskk.Props.Numeric.thousand_separator_groups Cskk.Props.Numeric.thousand_separator_removable Cskk.Props.Numeric.thousand_reversible Cskk.Props.Numeric.thousand_any_digits Cskk.Props.Numeric.thousand_wide_digits|
C19|proved|Cskk.Props.Numeric.zenkaku_charwise Cskk.Props.Numeric.kanji_each_charwise Cskk.Props.Numeric.zenkaku_reversible Cskk.Props.Numeric.kanji_each_reversible|
C20|proved|Cskk.Props.Numeric.numeric_key_correct Cskk.Props.Numeric.digits_of_scripts Cskk.Props.Numeric.numeric_key_no_digits Cskk.Props.Numeric.numeric_key_count Cskk.Props.NumericOffer.offered_list|
C21|proved|Cskk.Props.Numeric.template_filled Cskk.Props.Numeric.marker_meaning Cskk.Props.Numeric.template_filled_counterexample Cskk.Props.NumericOffer.offered_list Cskk.Props.Candidates.relookup_words|
C22|proved|Cskk.Props.Numeric.numeric_no_panic Cskk.Props.Numeric.huge_number_panics Cskk.Props.Numeric.fullwidth_digit_panics|
C23|proved|Cskk.Props.Forms.ascii_char_form Cskk.Props.Forms.ascii_string_charwise Cskk.Props.Forms.ascii_length_preserved Cskk.Props.Forms.shipped_ascii_forms Cskk.Props.Forms.shipped_backquote_not_converted Cskk.Props.Forms.shipped_wide Cskk.Props.Forms.shipped_wide_text Cskk.Props.Forms.forms_seen|
C24|proved|Cskk.Props.Forms.kana_form_greedy Cskk.Props.Forms.Greedy.det Cskk.Props.Forms.shipped_hiragana_to_katakana Cskk.Props.Forms.shipped_katakana Cskk.Props.Forms.shipped_half|
C25|proved|Cskk.Props.Romaji.convert_non_partial_iff Cskk.Props.Romaji.convert_greedy_iff Cskk.Props.Romaji.can_continue_iff Cskk.Props.Romaji.can_continue_lower_iff Cskk.Props.Romaji.next_state_spec Cskk.Props.Romaji.next_state_begins Cskk.Props.Romaji.Entry.det|table level; typing level is C45
C26|proved|Cskk.Props.KeyEvents.fcitx_event_normalised Cskk.Props.KeyEvents.fcitx_release_iff Cskk.Props.KeyEvents.fcitx_drops_mod5 Cskk.Props.KeyEvents.flags_event Cskk.Props.KeyEvents.modifierless_iff|
C27|proved|Cskk.Props.KeyEvents.key_sequence_tokenwise Cskk.Props.KeyEvents.denote_length Cskk.Props.KeyEvents.key_description_panics Cskk.Props.KeyEvents.ascii_description_no_panic Cskk.Props.KeyEvents.white_space|
C28|proved|Cskk.Props.Completion.complete_exact Cskk.Props.Completion.completions Cskk.Props.Completion.completion_drops_reading Cskk.Props.Completion.completions_of_reading|
C29|proved|Cskk.Props.Candidates.inOrder_answers Cskk.Props.Candidates.sides_do_not_mix Cskk.Props.Forms.okuri_letter Cskk.Props.Filing.loaded_exactly Cskk.Props.Filing.okuri_ari_line Cskk.Props.NumericOffer.offered_list Cskk.Props.FileLines.file_exactly|
C30|proved|Cskk.Props.Register.registered_word_offered Cskk.Props.Register.okurigana_registration_not_found Cskk.Props.Register.punctuation_registration_not_found Cskk.Props.Register.exit_confirms|holds for readings without okurigana; the code loses words registered with okurigana or after an auto-start mark, proved as exceptions
C31|proved|Cskk.Props.Levels.history_bounded Cskk.Props.Levels.abort_returns Cskk.Props.Levels.abort_undoes_change Cskk.Props.Levels.abort_in_direct_reopens_composition|
C32|proved|Cskk.Props.WillProcess.will_process_iff Cskk.Props.WillProcess.consumed_iff_romaji Cskk.Props.WillProcess.no_false_promise Cskk.Props.WillProcess.disagree_iff_romaji Cskk.Props.WillProcess.agree_letters Cskk.Props.WillProcess.agree_selection Cskk.Props.WillProcess.command_announced Cskk.Props.WillProcess.command_consumed Cskk.Props.WillProcess.command_decided Cskk.Props.WillProcess.default_table_ascii Cskk.Props.WillProcess.azik_table_ascii Cskk.Props.WillProcess.disagreements Cskk.Props.Machine.foresight Cskk.Props.Machine.taken_exactly Cskk.Props.Machine.foresight_met|exact characterisation of agreement; disagreements are theorems
C33|proved|Cskk.Props.CApi.candidates_copied Cskk.Props.CApi.candidates_freed Cskk.Props.CApi.candidates_nul Cskk.Props.CApi.pages_cover Cskk.Props.CApi.c_cursor Cskk.Props.CApi.c_count Cskk.Props.CApi.asCInt_spec|
C34|proved|Cskk.Props.Output.preedit_spells_detail Cskk.Props.Output.detail_parts|
C35|proved|Cskk.Props.Candidates.offered_order Cskk.Props.Candidates.strict_okuri_first Cskk.Props.Candidates.strict_okuri_not_global Cskk.Props.Candidates.annotation_moves_word Cskk.Props.NumericOffer.offered_list Cskk.Props.Merge.offered_exactly Cskk.Props.Merge.dedup_merge|
C36|proved|Cskk.Props.Ascii.typed_verbatim Cskk.Props.Ascii.typed_is_polled Cskk.Props.Ascii.abbreviation_verbatim Cskk.Props.Ascii.shipped_types Cskk.Props.Ascii.shipped_ascii_typing|
C37|proved|Cskk.Props.Reading.readings_agree Cskk.Props.Reading.lookup_uses_shown_reading Cskk.Props.Reading.deleting_okurigana_changes_lookup Cskk.Props.Reading.lookup_within_shown Cskk.Props.Reading.lookup_is_shown Cskk.Props.Reading.within_shown_seen Cskk.Props.Reading.is_shown_seen Cskk.Props.Reading.empty_reading_registered|
C38|proved|Cskk.Props.Delete.delete_direct Cskk.Props.Delete.delete_composing Cskk.Props.Delete.delete_okurigana Cskk.Props.Delete.delete_other Cskk.Props.Delete.backspace_is_delete Cskk.Props.Delete.delete_bare_mark|
C39|proved|Cskk.Props.DictSave.clean_not_written Cskk.Props.DictSave.save_result Cskk.Props.DictSave.dirty_needs_edit Cskk.Props.DictSave.edit_stays_dirty Cskk.Props.DictSave.reload_keeps_dirty Cskk.Props.ContextDicts.unmarked_is_unchanged Cskk.Props.DictSave.marked_iff|
C40|proved|Cskk.Props.Confirm.confirmCurrent_commits Cskk.Props.Confirm.confirm_commits_shown Cskk.Props.Confirm.confirm_invalid_index Cskk.Props.Confirm.command_commits Cskk.Props.Confirm.confirm_in_precomposition_loses_word|
C41|proved|Cskk.Props.DictSave.last_line_wins Cskk.Props.DictSave.earlier_lines_do_not_matter Cskk.Props.Filing.loaded_exactly Cskk.Props.FileLines.file_exactly|
C42|proved|Cskk.Props.CApi.detail_describes Cskk.Props.CApi.detail_freed Cskk.Props.CApi.detail_freed_all Cskk.Props.CApi.string_returned Cskk.Props.CApi.c_poll Cskk.Props.CApi.c_preedit Cskk.Props.CApi.c_to_composite Cskk.Props.CApi.completion_detail_leaks Cskk.Props.CApi.detail_nul|the leak of the completion heading is part of the exact statement
C43|proved|Cskk.Props.Navigate.next_moves Cskk.Props.Navigate.next_at_end Cskk.Props.Navigate.previous_moves Cskk.Props.Navigate.previous_at_start Cskk.Props.Navigate.next_repeated Cskk.Props.Navigate.next_shows Cskk.Props.Navigate.previous_undoes_next Cskk.Props.Navigate.unchosen_shows Cskk.Props.Navigate.select_valid Cskk.Props.Navigate.select_past_end Cskk.Props.Navigate.select_negative Cskk.Props.Navigate.select_nothing Cskk.Props.Navigate.shipped_keys Cskk.Props.Convert.completion_moves|shipped_keys records that the AZIK rule has no key for the previous candidate in the katakana and half-width modes
C44|proved|Cskk.Props.Convert.convert_known Cskk.Props.Convert.convert_shows Cskk.Props.Convert.convert_unknown Cskk.Props.Convert.convert_nothing Cskk.Props.Convert.complete_known Cskk.Props.Convert.complete_unknown Cskk.Props.Convert.shipped_space Cskk.Props.Convert.skip_of_absent|
C45|proved|Cskk.Props.Typing.typing_direct Cskk.Props.Typing.spelled_direct Cskk.Props.Typing.typing_reading Cskk.Props.Typing.spelled_reading Cskk.Props.ShippedTyping.shipped_spelled Cskk.Props.ShippedTyping.shipped_noCommand Cskk.Props.ShippedTyping.pending_dropped|pending_dropped is the violation witness: pending keys are lost before a key that is kana by itself
C46|proved|Cskk.Props.Machine.marks_convert Cskk.Props.Words.word_typed Cskk.Props.Words.word_begins Cskk.Props.Words.word_starts Cskk.Props.Words.word_starts_fresh Cskk.Props.Words.word_begins_after Cskk.Props.Words.word_converted Cskk.Props.Words.okuri_begins Cskk.Props.Words.okuri_starts Cskk.Props.Words.okuri_sokuon Cskk.Props.Words.okuri_begins_after Cskk.Props.Words.okuri_key Cskk.Props.Words.okuri_typed Cskk.Props.Words.okuri_word_converted Cskk.Props.Words.keyword_converts Cskk.Props.ShippedTyping.shipped_word|
C47|proved|Cskk.Props.KeyToken.paren_description Cskk.Props.KeyToken.prefixed_description Cskk.Props.KeyToken.plain_description Cskk.Props.KeyToken.rule_keys|
C48|proved|Cskk.Props.RuleText.loaded_value Cskk.Props.RuleText.loaded_final Cskk.Props.RuleText.loaded_continues Cskk.Props.RuleText.loaded_continues_lower Cskk.Props.RuleText.load_order_irrelevant Cskk.Props.RuleText.ambiguous_entries_depend_on_order|last theorem is the exception
C49|proved|Cskk.Props.NoPanic.key_never_panics Cskk.Props.NoPanic.call_never_panics Cskk.Props.NoPanic.history_never_panics Cskk.Props.NoPanic.shipped_never_panics Cskk.Props.NoPanic.twenty_digits_panic Cskk.Props.NoPanic.cancel_after_back_crashes_debug|the last two theorems show that the bound and the restriction to release builds are necessary
C50|proved|Cskk.Props.World.independent Cskk.Props.World.no_lost_updates Cskk.Props.World.shared_static_constant Cskk.Props.World.shared_well_formed Cskk.Props.World.others_keep_state Cskk.Props.World.confirmed_seen_by_others Cskk.Props.World.confirming_stale_word_restores_it Cskk.Props.World.purge_elsewhere Cskk.Props.World.confirm_brings_back|calls are atomic; the last two theorems are executions
C51|proved|Cskk.Props.CRules.rules_described Cskk.Props.CRules.rules_unavailable Cskk.Props.CRules.no_rules Cskk.Props.CRules.rules_freed Cskk.Props.CRules.free_null_rules Cskk.Props.CRules.capAfter_eq_iff Cskk.Props.CRules.shipped_rules_wrong_layout|the last theorem is the violation for the shipped rules
C52|proved|Cskk.Props.RuleLoad.found_is_first Cskk.Props.RuleLoad.not_found_iff Cskk.Props.RuleLoad.empty_variable_hides_home Cskk.Props.RuleLoad.set_rule_ok Cskk.Props.RuleLoad.set_rule_failed Cskk.Props.RuleLoad.rule_path Cskk.Props.RuleLoad.fallback_context Cskk.Props.RuleLoad.bare_context_types|the contents of files are parameters here; from their bytes on: C86, C90
C53|proved|Cskk.Props.Locks.no_deadlock Cskk.Props.Locks.stuck_is_finished Cskk.Props.Locks.no_endless_execution Cskk.Props.Locks.never_poisoned Cskk.Props.Locks.dictionary_is_log Cskk.Props.Locks.changes_are_programs Cskk.Props.Locks.reads_are_consistent Cskk.Props.Locks.isolated Cskk.Props.Locks.lookup_alone Cskk.Props.Locks.complete_alone Cskk.Props.Locks.write_alone Cskk.Props.Locks.confirm_alone Cskk.Props.Locks.purge_alone Cskk.Props.Locks.lookup_is_reader Cskk.Props.Locks.complete_is_reader Cskk.Props.Locks.concurrent_lookup Cskk.Props.Locks.torn_lookup Cskk.Props.Locks.poisoned_for_all|the last two theorems are the limits: only accesses to one dictionary are atomic; a panic under a lock spreads
C54|proved|Cskk.Props.Utf8.decode_encode Cskk.Props.Utf8.lines_independent Cskk.Props.Utf8.decode_no_newline Cskk.Props.Utf8.damage_confined Cskk.Props.Utf8.truncated_file Cskk.Props.Utf8.utf8_save_then_open Cskk.Props.Utf8.long_text_encoded Cskk.Props.Utf8.empty_text_refused|the decoder of the WHATWG standard, which encoding_rs implements; a byte order mark at the start of a file is not removed in the model
C55|proved|Cskk.Props.Handles.allowed_never_fails Cskk.Props.Handles.lives_while_used Cskk.Props.Handles.nothing_leaks Cskk.Props.Handles.returned_pointers Cskk.Props.Handles.first_null_drops_all Cskk.Props.Handles.later_null_fails Cskk.Props.Handles.used_again_fails|the last three show the limits: NULL in an array of dictionaries, and pointers used after they were given back
C56|proved|Cskk.Props.Persist.life_as_expected Cskk.Props.Persist.history_is_its_edits Cskk.Props.Persist.clean_survives_restart Cskk.Props.Persist.retry_saves_everything Cskk.Props.Persist.save_report Cskk.Props.Persist.missing_file_never_saved Cskk.Props.Persist.create_failure_loses_file Cskk.Props.Persist.two_failures_lose_both Cskk.Props.Persist.empty_file_plain|UTF-8 user dictionaries; edits of words the file format can carry; emptied okuri-ari groups are excluded because the format cannot write them (C12, emptied_group_misread); loss of power after a completed save (no fsync) is outside the model
C57|proved|Cskk.Props.SameWords.same_words_same_behaviour Cskk.Props.SameWords.same_words_same_text Cskk.Props.SameWords.same_key Cskk.Props.SameWords.same_observations Cskk.Props.SameWords.same_step Cskk.Props.SameWords.reopened_same Cskk.Props.SameWords.restart_invisible Cskk.Props.SameWords.learned_session|dictionaries are well-formed (true of everything made by edits; a file with a word twice in one group is not)
C58|proved|Cskk.Props.ModeKeys.switch_mode Cskk.Props.ModeKeys.commit_reading Cskk.Props.ModeKeys.commit_reading_only Cskk.Props.ModeKeys.default_mode_keys Cskk.Props.ModeKeys.azik_mode_keys Cskk.Props.ModeKeys.toggle_twice Cskk.Props.ModeKeys.back_to_kana Cskk.Props.ModeKeys.default_commit_keys Cskk.Props.ModeKeys.default_half_width Cskk.Props.ModeKeys.default_abbreviation Cskk.Props.ModeKeys.half_width_key_commits_hiragana Cskk.Props.ModeKeys.half_width_commit_drops_pending Cskk.Props.ModeKeys.commit_drops_okurigana Cskk.Props.ModeKeys.pending_survives_Q_and_slash|The exceptions of the shipped rules are part of the statements (forms, pending keys) and witnessed.
C59|proved|Cskk.Props.Registration.waiting_untouched Cskk.Props.Registration.key_step Cskk.Props.Registration.cancel_restores Cskk.Props.Registration.cancel_undoes Cskk.Props.Registration.return_empty Cskk.Props.Registration.return_registers Cskk.Props.Registration.return_outside Cskk.Props.Registration.shipped_abortLast Cskk.Props.Registration.shipped_ends Cskk.Props.Registration.unknown_word_given_up Cskk.Props.Registration.waiting_hides_committed|rules with Abort last in its commands; if the asking level was taking okurigana, the okurigana becomes the end of the reading; with twenty remembered modes the oldest is lost; the text committed on a waiting level is not shown (witness)
C60|proved|Cskk.Props.RuleFile.captures_iff Cskk.Props.RuleFile.instruction_means Cskk.Props.RuleFile.spelling_read Cskk.Props.RuleFile.surplus_accepted Cskk.Props.RuleFile.commands_in_effect Cskk.Props.RuleFile.accepted_iff Cskk.Props.RuleFile.key_has_listed_command Cskk.Props.RuleFiles.default_text Cskk.Props.RuleFiles.azik_text Cskk.Props.RuleFiles.shipped_proper Cskk.Props.RuleFiles.kana_key_panics|from the parsed TOML file; a key text starting with a kana makes the reader panic (kana_key_panics); surplus text around name(mode) is accepted (surplus_accepted)
C61|proved|Cskk.Props.DictGrammar.line_read Cskk.Props.DictGrammar.plain_line_iff Cskk.Props.DictGrammar.semicolon_in_annotation_loses_line Cskk.Props.DictGrammar.tolerated_lines Cskk.Props.DictGrammar.tolerated_orders Cskk.Props.DictGrammar.empty_concat_kept Cskk.Props.FileLines.lines_iff Cskk.Props.FileLines.file_exactly Cskk.Props.FileLines.documented_line_found|a bare word in kana directly before a group is read as its label (Cskk.Props.DictFile.kana_word_before_group_misread) and is excluded in line_read; lines with brackets which are not in the format are not characterised
C62|proved|Cskk.Props.WordCycle.purge_cycle Cskk.Props.WordCycle.purged_level_empty Cskk.Props.WordCycle.confirm_cycle Cskk.Props.WordCycle.offered_after_purge Cskk.Props.WordCycle.purged_gone Cskk.Props.WordCycle.candidate_side Cskk.Props.WordCycle.purge_words Cskk.Props.WordCycle.confirm_words Cskk.Props.WordCycle.offered_after_confirm Cskk.Props.WordCycle.cancel_after_purge|
C63|proved|Cskk.Props.TypeOn.key_settles Cskk.Props.TypeOn.typing_on Cskk.Props.TypeOn.typing_on_text Cskk.Props.TypeOn.shipped_typing_on Cskk.Props.TypeOn.backspace_confirms Cskk.Props.TypeOn.mode_keys_typed Cskk.Props.TypeOn.pending_goes_on Cskk.Props.TypeOn.confirm_settles|mode_keys_typed and pending_goes_on are the violation witnesses
C64|proved|Cskk.Props.CompletionCycle.tabs Cskk.Props.CompletionCycle.no_completion Cskk.Props.CompletionCycle.confirm_completion Cskk.Props.CompletionCycle.cancel_completion Cskk.Props.CompletionCycle.completion_learned Cskk.Props.CompletionCycle.azik_never_completes|azik_never_completes is the violation witness
C65|proved|Cskk.Props.Session.session_in_step Cskk.Props.Session.save_each Cskk.Props.Session.other_files_untouched Cskk.Props.Session.save_completes Cskk.Props.Session.restart_forgets_nothing Cskk.Props.Session.shared_file_last_wins Cskk.Props.Session.file_is_a_backup Cskk.Props.Session.lost_file_never_saved Cskk.Props.Session.sample_end Cskk.Props.Session.sample_restart|shared_file_last_wins, file_is_a_backup and lost_file_never_saved are the violation witnesses; the words must be such that the file format can carry them (PlainDict, as in C56)
C66|proved|Cskk.Props.Label.known_label Cskk.Props.Label.unknown_label_reads_utf8 Cskk.Props.Label.unknown_label_drops_lines Cskk.Props.Label.unknown_label_save_panics Cskk.Props.Label.unknown_label_destroys Cskk.Props.Label.utf16_save_loses_all Cskk.Props.Label.utf16_read Cskk.Props.Label.utf16_opens Cskk.Props.Label.sample_labels Cskk.Props.Label.euc_not_utf8|unknown_label_drops_lines, unknown_label_save_panics, unknown_label_destroys and utf16_save_loses_all are the violation witnesses
C67|proved|Cskk.Props.EucJp.decode_encode Cskk.Props.EucJp.given_back Cskk.Props.EucJp.euc_save_then_open Cskk.Props.EucJp.lines_independent Cskk.Props.EucJp.damage_confined Cskk.Props.EucJp.sample_euc|given_back is the exact statement with the three characters that change
C68|proved|Cskk.Props.CSession.session_refines Cskk.Props.CSession.session_strings Cskk.Props.CSession.session_reads Cskk.Props.CSession.session_no_leak Cskk.Props.CSession.session_continues Cskk.Props.CSession.c_session_in_step Cskk.Props.CSession.call_refines Cskk.Props.CSession.call_kept Cskk.Props.CSession.text_received Cskk.Props.CSession.program_runs Cskk.Props.CSession.program_holds Cskk.Props.CSession.bad_keys_abort Cskk.Props.CSession.never_underlined Cskk.Props.CSession.null_keywords|bad_keys_abort, never_underlined and null_keywords are the violation witnesses; program_runs shows a program that keeps the rules
C69|proved|Cskk.Props.Stale.stale_capital_is_small Cskk.Props.Stale.corrected_start Cskk.Props.Stale.corrected_examples|corrected_start and corrected_examples are the violation witnesses
C70|proved|Cskk.Props.Teach.taught_for_ever Cskk.Props.Teach.teaching Cskk.Props.Teach.recalled Cskk.Props.Teach.text_typed Cskk.Props.Teach.offered Cskk.Props.Teach.hon_taught|end to end: keys, registration, file, new program, keys; hon_taught is an instance with all hypotheses discharged
C71|proved|Cskk.Props.Document.writes Cskk.Props.Document.written Cskk.Props.Document.text_polled Cskk.Props.Document.text_delivered Cskk.Props.Document.letter_writes|by induction over the pieces of the text; Spec/Document.lean says what a text is; text_delivered (polls between any two keys) excludes the key X, which erases a shown word
C72|proved|Cskk.Props.Taken.all_taken Cskk.Props.Taken.never_lost Cskk.Props.Taken.character_taken Cskk.Props.Taken.lost_handed_back Cskk.Props.Taken.character_uncancelled Cskk.Props.Taken.cancelled_list Cskk.Props.Taken.cancelled_list_stops Cskk.Props.Taken.cancelled_mode|invariant over all levels; lost_handed_back is the converse; the cancelled_* theorems are the violation witnesses for Ctrl-g
C73|proved|Cskk.Props.Editing.backspace Cskk.Props.Editing.direct_stroke Cskk.Props.Editing.direct_edited Cskk.Props.Editing.reading_stroke Cskk.Props.Editing.reading_edited Cskk.Props.Editing.emptied Cskk.Props.Editing.opens Cskk.Props.Editing.word_edited Cskk.Props.Editing.asked_level Cskk.Props.Editing.word_corrected Cskk.Props.Editing.same_line Cskk.Props.Editing.watasi_corrected Cskk.Props.Editing.watasi_straight|Spec/Editing.lean is the line editor; simulation stroke by stroke, then induction over the strokes
C74|proved|Cskk.Props.Screens.schedules_agree Cskk.Props.Screens.acts_writes Cskk.Props.Screens.act_write Cskk.Props.Screens.writes_withoutPolls Cskk.Props.Screens.shipped_deletes Cskk.Props.Screens.shipped_gentle Cskk.Props.Screens.registration_leaks|Spec/Screen.lean is the program; simulation of every schedule by the context that is never polled; the key X is left out; registration_leaks is a witness about BackSpace in an empty registration
C75|proved|Cskk.Props.Machine.use_refines Cskk.Props.Machine.press_goes Cskk.Props.Machine.plain_goes Cskk.Props.Machine.control_goes Cskk.Props.Machine.useless_handed Cskk.Props.Machine.control_seen Cskk.Props.Machine.screen_shown Cskk.Props.Machine.poll_goes Cskk.Props.Machine.use_goes Cskk.Props.Machine.act_goes Cskk.Props.Machine.fresh_at Cskk.Props.Machine.view_seen Cskk.Props.Machine.select_goes Cskk.Props.Machine.confirm_at_goes Cskk.Props.Machine.calls_seen Cskk.Props.Machine.session_seen Cskk.Props.Machine.numbers_seen Cskk.Props.Machine.leftovers_seen Cskk.Props.Machine.session_done Cskk.Props.Machine.session_seen' Cskk.Props.Machine.session_seen'' Cskk.Props.Machine.marks_convert Cskk.Props.Machine.given_up_seen Cskk.Props.Machine.lone_n_aside Cskk.Props.Machine.answers_printable Cskk.Props.Machine.answers_key Cskk.Props.Machine.next_key Cskk.Props.Machine.next_key_applies Cskk.Props.Machine.all_seen Cskk.Props.Machine.detail_seen Cskk.Props.Machine.reading_seen Cskk.Props.Machine.announced Cskk.Props.Machine.registration_details Cskk.Props.Machine.shown_details Cskk.Props.Machine.number_words_seen|Spec/Machine.lean is the machine (it answers `none` for calls it does not cover); Rel in MachineBase is the simulation relation; the session theorems are concrete histories which the machine covers
C76|proved|Cskk.Props.Lists.offered_only_while_choosing Cskk.Props.Lists.shipped_tidy Cskk.Props.Lists.reached Cskk.Props.Lists.set_by_hand Cskk.Props.Cursor.relookup_registration_breaks_cursor|Ordinary in Spec/Lists.lean excludes the two exceptions, which are shown by set_by_hand and relookup_registration_breaks_cursor
C77|proved|Cskk.Props.Concat.concat_read Cskk.Props.Concat.line_meant Cskk.Props.Concat.other_kept Cskk.Props.Concat.form_read Cskk.Props.Concat.line_example Cskk.Props.Concat.concat_examples Cskk.Props.Concat.unclosed_numbers|Spec/Concat.lean writes strings as Emacs Lisp does; clear excludes ambiguous numbers and meant backslashes; unclosed_numbers is the violation
C78|proved|Cskk.Props.Disk.as_if_one_by_one Cskk.Props.Disk.order_kept Cskk.Props.Disk.in_step Cskk.Props.Disk.all_saved Cskk.Props.Disk.no_deadlock Cskk.Props.Disk.can_finish Cskk.Props.Disk.after_save Cskk.Props.Disk.after_reload Cskk.Props.Disk.encodes_utf8 Cskk.Props.Disk.encodes_ascii Cskk.Props.Disk.torn Cskk.Props.Disk.example_run|Model/Disk.lean splits a save into the calls of the operating system; Spec/Disk.lean has the reference (after, oneByOne); Apart says that the files differ, torn is the violation without it
C79|proved|Cskk.Props.Office.office_refines Cskk.Props.Office.day_goes Cskk.Props.Office.turn_goes Cskk.Props.Office.view_stands Cskk.Props.Office.other_screens Cskk.Props.Office.turns_seen Cskk.Props.Office.turns_done|Spec/Office.lean is the specification (machines of Spec/Machine.lean on one shelf of dictionaries); turns_seen is a day with three applications which the machines cover; calls run one after the other (C53 and C78 say that threads behave so)
C80|proved|Cskk.Props.Front.c_refines Cskk.Props.Front.says_goes Cskk.Props.Front.follows_goes Cskk.Props.Front.follow_sound Cskk.Props.Front.plan_follows Cskk.Props.Front.plan_runs Cskk.Props.Front.plan_applies|Spec/Front.lean says what each C call means for the machine and what the program reads in its result; details with a NUL in a text are not part of it (C68 has them); plan is a program that converts, pages, asks for the details, confirms, polls, releases and saves
C81|proved|Cskk.Props.Life.life_told Cskk.Props.Life.told_happens Cskk.Props.Life.openAll_held Cskk.Props.Life.held_plain Cskk.Props.Life.life_seen|Spec/Life.lean is the life of the machine and of the engine; life_seen applies the theorem to two programs (default rule, then AZIK) with failing saves and a reload; C83 shows when its hypothesis that the words can be saved is kept
C82|proved|Cskk.Props.CLife.c_life Cskk.Props.CLife.remembered Cskk.Props.CLife.follows_goes Cskk.Props.CLife.step_twin Cskk.Props.CLife.life_applies|Spec/CLife.lean says what programs do and what the machine remembers; life_applies: a program that saves and is killed later, one that is killed without saving, and what the third reads; C83 shows when its hypothesis that the words can be saved is kept
C83|proved|Cskk.Props.Careful.words_stay_plain Cskk.Props.Careful.careful_life Cskk.Props.Careful.c_words_stay_plain Cskk.Props.Careful.careful_c_life Cskk.Props.Careful.careful_seen Cskk.Props.Careful.careful_programs|Spec/Careful.lean says what the user has to mind; careful_seen and careful_programs apply the theorems; C84 says what happens otherwise
C84|proved|Cskk.Props.Strays.words_refiled Cskk.Props.Strays.registered_then_refiled Cskk.Props.Strays.refiled_seen Cskk.Props.Strays.careless_seen|Spec/Strays.lean says what a file makes of the words; careless_seen is the whole story with two programs
C85|proved|Cskk.Props.Years.years_told Cskk.Props.Years.spent_spends Cskk.Props.Years.turn_stands Cskk.Props.Years.save_stands Cskk.Props.Years.refresh_stands Cskk.Props.Years.years_seen Cskk.Props.CarefulYears.shelf_stays_plain Cskk.Props.CarefulYears.careful_years Cskk.Props.CarefulYears.careful_years_seen|Spec/Years.lean is the specification; Spec/CarefulYears.lean carries the careful user of C83 to the office; years_seen and careful_years_seen apply the theorems to two days with two applications, a failing save and a reload; calls run one after the other (C53 and C78 say that threads behave so)
C86|proved|Cskk.Props.TomlText.document_iff Cskk.Props.TomlText.ruleFile_iff Cskk.Props.TomlText.text_accepted Cskk.Props.TomlText.text_in_effect Cskk.Props.TomlText.table_order Cskk.Props.TomlText.blank_line Cskk.Props.TomlText.default_file Cskk.Props.TomlText.azik_file Cskk.Props.TomlText.metadata_file Cskk.Props.TomlText.form_files Cskk.Props.TomlText.shipped_rules Cskk.Props.TomlText.shipped_seen|Spec/TomlText.lean is the grammar; the crate toml is a dependency and modelled from TOML 1.0, for the part of the language which the shipped files use; about other files nothing is said
C87|proved|Cskk.Props.RuleList.rules_listed Cskk.Props.RuleList.rule_chosen Cskk.Props.RuleList.c_rules_listed Cskk.Props.RuleList.shipped_list Cskk.Props.RuleList.shipped_metadata|metadata files whose tables hold texts only; the directory which the crate xdg finds is a parameter
C88|proved|Cskk.Props.Bom.mark_ignored Cskk.Props.Bom.unmarked_same Cskk.Props.Bom.saved_unmarked Cskk.Props.Bom.as_without_marks Cskk.Props.Bom.unknown_label_marked Cskk.Props.Bom.marks_are_characters Cskk.Props.Bom.utf16_marked Cskk.Props.Bom.second_mark Cskk.Props.Bom.sample|the crate encoding_rs_io is a dependency; its treatment of marks is modelled from its documentation
C89|proved|Cskk.Props.Boot.program_starts Cskk.Props.Boot.files_stay Cskk.Props.Boot.life_from_files Cskk.Props.Boot.rule_changed Cskk.Props.Boot.disk_installed Cskk.Props.Boot.disk_safe Cskk.Props.Boot.starts_and_remembers|where the crate xdg finds the files is a parameter, the same for all programs of a life
C90|proved|Cskk.Props.FormFile.ascii_file Cskk.Props.FormFile.kana_file Cskk.Props.FormFile.no_files Cskk.Props.FormFile.fallback_starts Cskk.Props.FormFile.broken_forms Cskk.Props.FormFile.forms_seen|
C91|proved|Cskk.Props.Xdg.rules_found Cskk.Props.Xdg.same_place Cskk.Props.Xdg.package_found Cskk.Props.Xdg.no_home Cskk.Props.Xdg.homeless Cskk.Props.Xdg.life_from_environment Cskk.Props.Xdg.empty_variable_splits Cskk.Props.Xdg.empty_directory_hides Cskk.Props.Xdg.found_and_remembered|the crate xdg is a dependency; its search is modelled from its documentation
C92|proved|Cskk.Props.Entries.shipped_entry_direct Cskk.Props.Entries.shipped_entry_reading Cskk.Props.Entries.default_entries Cskk.Props.Entries.azik_entries Cskk.Props.Entries.n_waits Cskk.Props.Entries.azik_ch Cskk.Props.Entries.azik_names|every entry of the shipped tables, from every context in direct input or with a reading, nothing pending; the exceptions are three key sequences, each with what happens instead
C93|proved|Cskk.Props.Wishes.everything_can_be_written Cskk.Props.Wishes.every_word Cskk.Props.Wishes.every_short Cskk.Props.Wishes.readable_default Cskk.Props.Wishes.default_covers Cskk.Props.Wishes.azik_covers Cskk.Props.Wishes.katakana_form Cskk.Props.Wishes.azik_never Cskk.Props.Wishes.begins_with_mark|existence of keys for every granted list of wishes
C94|proved|Cskk.Props.WayBack.always_a_way Cskk.Props.WayBack.after_any_history Cskk.Props.WayBack.back_leads|histories the SKK machine of C75 knows; registrations begun by a keyword are excluded
