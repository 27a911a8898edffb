# Axioms of the theorems in MANIFEST.json (output of `#print axioms`, made by tools/axioms.py)

| theorem | axioms |
|---|---|
| `Cskk.Props.Ascii.abbreviation_verbatim` | propext, Quot.sound |
| `Cskk.Props.Ascii.shipped_ascii_typing` | propext, Quot.sound |
| `Cskk.Props.Ascii.shipped_types` | propext, Quot.sound |
| `Cskk.Props.Ascii.typed_is_polled` | propext, Quot.sound |
| `Cskk.Props.Ascii.typed_verbatim` | propext, Quot.sound |
| `Cskk.Props.Bom.as_without_marks` | propext |
| `Cskk.Props.Bom.mark_ignored` | propext, Classical.choice, Quot.sound |
| `Cskk.Props.Bom.marks_are_characters` | propext |
| `Cskk.Props.Bom.sample` | propext, Classical.choice, Quot.sound |
| `Cskk.Props.Bom.saved_unmarked` | propext, Classical.choice, Quot.sound |
| `Cskk.Props.Bom.second_mark` | propext, Classical.choice, Quot.sound |
| `Cskk.Props.Bom.unknown_label_marked` | propext, Classical.choice, Quot.sound |
| `Cskk.Props.Bom.unmarked_same` | propext, Classical.choice, Quot.sound |
| `Cskk.Props.Bom.utf16_marked` | propext, Classical.choice, Quot.sound |
| `Cskk.Props.Boot.disk_installed` | propext, Classical.choice, Quot.sound |
| `Cskk.Props.Boot.disk_safe` | propext, Classical.choice, Quot.sound |
| `Cskk.Props.Boot.files_stay` | propext, Classical.choice, Quot.sound |
| `Cskk.Props.Boot.life_from_files` | propext, Classical.choice, Quot.sound |
| `Cskk.Props.Boot.program_starts` | propext, Classical.choice, Quot.sound |
| `Cskk.Props.Boot.rule_changed` | propext, Classical.choice, Quot.sound |
| `Cskk.Props.Boot.starts_and_remembers` | propext, Classical.choice, Quot.sound |
| `Cskk.Props.CApi.asCInt_spec` | propext, Classical.choice, Quot.sound |
| `Cskk.Props.CApi.c_count` | propext, Classical.choice, Quot.sound |
| `Cskk.Props.CApi.c_cursor` | propext, Classical.choice, Quot.sound |
| `Cskk.Props.CApi.c_poll` | propext, Classical.choice, Quot.sound |
| `Cskk.Props.CApi.c_preedit` | propext, Classical.choice, Quot.sound |
| `Cskk.Props.CApi.c_to_composite` | propext, Classical.choice, Quot.sound |
| `Cskk.Props.CApi.candidates_copied` | propext, Classical.choice, Quot.sound |
| `Cskk.Props.CApi.candidates_freed` | propext, Classical.choice, Quot.sound |
| `Cskk.Props.CApi.candidates_nul` | propext, Classical.choice, Quot.sound |
| `Cskk.Props.CApi.completion_detail_leaks` | propext |
| `Cskk.Props.CApi.detail_describes` | propext, Classical.choice, Quot.sound |
| `Cskk.Props.CApi.detail_freed` | propext, Classical.choice, Quot.sound |
| `Cskk.Props.CApi.detail_freed_all` | propext, Classical.choice, Quot.sound |
| `Cskk.Props.CApi.detail_nul` | propext |
| `Cskk.Props.CApi.pages_cover` | propext, Classical.choice, Quot.sound |
| `Cskk.Props.CApi.string_returned` | propext, Classical.choice, Quot.sound |
| `Cskk.Props.CLife.c_life` | propext, Classical.choice, Quot.sound |
| `Cskk.Props.CLife.follows_goes` | propext, Classical.choice, Quot.sound |
| `Cskk.Props.CLife.life_applies` | propext, Classical.choice, Quot.sound |
| `Cskk.Props.CLife.remembered` | propext, Classical.choice, Quot.sound |
| `Cskk.Props.CLife.step_twin` | propext, Classical.choice, Quot.sound |
| `Cskk.Props.CRules.capAfter_eq_iff` | propext, Classical.choice, Quot.sound |
| `Cskk.Props.CRules.free_null_rules` | propext, Quot.sound |
| `Cskk.Props.CRules.no_rules` | propext |
| `Cskk.Props.CRules.rules_described` | propext, Classical.choice, Quot.sound |
| `Cskk.Props.CRules.rules_freed` | propext, Classical.choice, Quot.sound |
| `Cskk.Props.CRules.rules_unavailable` | propext, Classical.choice, Quot.sound |
| `Cskk.Props.CRules.shipped_rules_wrong_layout` | propext, Classical.choice, Quot.sound |
| `Cskk.Props.CSession.bad_keys_abort` | propext, Quot.sound |
| `Cskk.Props.CSession.c_session_in_step` | propext, Classical.choice, Quot.sound |
| `Cskk.Props.CSession.call_kept` | propext, Classical.choice, Quot.sound |
| `Cskk.Props.CSession.call_refines` | propext, Quot.sound |
| `Cskk.Props.CSession.never_underlined` | propext, Quot.sound |
| `Cskk.Props.CSession.null_keywords` | propext, Quot.sound |
| `Cskk.Props.CSession.program_holds` | propext, Quot.sound |
| `Cskk.Props.CSession.program_runs` | propext, Quot.sound |
| `Cskk.Props.CSession.session_continues` | propext, Classical.choice, Quot.sound |
| `Cskk.Props.CSession.session_no_leak` | propext, Classical.choice, Quot.sound |
| `Cskk.Props.CSession.session_reads` | propext, Classical.choice, Quot.sound |
| `Cskk.Props.CSession.session_refines` | propext, Quot.sound |
| `Cskk.Props.CSession.session_strings` | propext, Classical.choice, Quot.sound |
| `Cskk.Props.CSession.text_received` | propext, Classical.choice, Quot.sound |
| `Cskk.Props.CandList.add_nothing_breaks_cursor` | propext |
| `Cskk.Props.CandList.backward_forward` | propext, Quot.sound |
| `Cskk.Props.CandList.cursor_in_range_checked` | propext, Classical.choice, Quot.sound |
| `Cskk.Props.CandList.cursor_in_range_guarded` | propext, Classical.choice, Quot.sound |
| `Cskk.Props.CandList.forward_at_end` | propext, Quot.sound |
| `Cskk.Props.CandList.forward_empty_panics` | none |
| `Cskk.Props.CandList.forward_empty_wraps` | none |
| `Cskk.Props.CandList.forward_moves` | propext, Quot.sound |
| `Cskk.Props.CandList.hasNext_iff_forward` | propext, Quot.sound |
| `Cskk.Props.Candidates.annotation_moves_word` | none |
| `Cskk.Props.Candidates.confirmed_offered_first` | propext, Quot.sound |
| `Cskk.Props.Candidates.confirmed_word_not_first` | propext |
| `Cskk.Props.Candidates.dedup_spec` | propext, Classical.choice, Quot.sound |
| `Cskk.Props.Candidates.inOrder_answers` | propext |
| `Cskk.Props.Candidates.numeric_duplicates` | propext |
| `Cskk.Props.Candidates.offered_order` | propext, Classical.choice, Quot.sound |
| `Cskk.Props.Candidates.offered_words` | propext, Classical.choice, Quot.sound |
| `Cskk.Props.Candidates.offered_words_numeric` | propext, Classical.choice, Quot.sound |
| `Cskk.Props.Candidates.purged_not_answered` | propext, Quot.sound |
| `Cskk.Props.Candidates.relookup_words` | propext, Classical.choice, Quot.sound |
| `Cskk.Props.Candidates.sides_do_not_mix` | none |
| `Cskk.Props.Candidates.strict_okuri_first` | propext, Classical.choice, Quot.sound |
| `Cskk.Props.Candidates.strict_okuri_not_global` | none |
| `Cskk.Props.Careful.c_words_stay_plain` | propext, Classical.choice, Quot.sound |
| `Cskk.Props.Careful.careful_c_life` | propext, Classical.choice, Quot.sound |
| `Cskk.Props.Careful.careful_life` | propext, Classical.choice, Quot.sound |
| `Cskk.Props.Careful.careful_programs` | propext, Classical.choice, Quot.sound |
| `Cskk.Props.Careful.careful_seen` | propext, Classical.choice, Quot.sound |
| `Cskk.Props.Careful.words_stay_plain` | propext, Classical.choice, Quot.sound |
| `Cskk.Props.CarefulYears.careful_years` | propext, Classical.choice, Quot.sound |
| `Cskk.Props.CarefulYears.careful_years_seen` | propext, Classical.choice, Quot.sound |
| `Cskk.Props.CarefulYears.shelf_stays_plain` | propext, Classical.choice, Quot.sound |
| `Cskk.Props.Completion.complete_exact` | propext, Classical.choice, Quot.sound |
| `Cskk.Props.Completion.completion_drops_reading` | none |
| `Cskk.Props.Completion.completions` | propext, Classical.choice, Quot.sound |
| `Cskk.Props.Completion.completions_of_reading` | propext, Classical.choice, Quot.sound |
| `Cskk.Props.CompletionCycle.azik_never_completes` | propext |
| `Cskk.Props.CompletionCycle.cancel_completion` | propext, Classical.choice, Quot.sound |
| `Cskk.Props.CompletionCycle.completion_learned` | propext, Classical.choice, Quot.sound |
| `Cskk.Props.CompletionCycle.confirm_completion` | propext, Classical.choice, Quot.sound |
| `Cskk.Props.CompletionCycle.no_completion` | propext, Classical.choice, Quot.sound |
| `Cskk.Props.CompletionCycle.tabs` | propext, Classical.choice, Quot.sound |
| `Cskk.Props.Concat.concat_examples` | propext |
| `Cskk.Props.Concat.concat_read` | propext, Classical.choice, Quot.sound |
| `Cskk.Props.Concat.form_read` | propext, Classical.choice, Quot.sound |
| `Cskk.Props.Concat.line_example` | propext |
| `Cskk.Props.Concat.line_meant` | propext, Classical.choice, Quot.sound |
| `Cskk.Props.Concat.other_kept` | propext, Quot.sound |
| `Cskk.Props.Concat.unclosed_numbers` | propext |
| `Cskk.Props.Confirm.command_commits` | propext |
| `Cskk.Props.Confirm.confirmCurrent_commits` | propext |
| `Cskk.Props.Confirm.confirm_commits_shown` | propext, Quot.sound |
| `Cskk.Props.Confirm.confirm_in_precomposition_loses_word` | propext |
| `Cskk.Props.Confirm.confirm_invalid_index` | propext |
| `Cskk.Props.ContextDicts.dictionaries_only_edited` | propext, Classical.choice, Quot.sound |
| `Cskk.Props.ContextDicts.dictionaries_stay_well_formed` | propext, Classical.choice, Quot.sound |
| `Cskk.Props.ContextDicts.dictionary_count` | propext, Classical.choice, Quot.sound |
| `Cskk.Props.ContextDicts.static_never_modified` | propext, Classical.choice, Quot.sound |
| `Cskk.Props.ContextDicts.unmarked_is_unchanged` | propext, Classical.choice, Quot.sound |
| `Cskk.Props.Convert.complete_known` | propext, Classical.choice, Quot.sound |
| `Cskk.Props.Convert.complete_unknown` | propext, Classical.choice, Quot.sound |
| `Cskk.Props.Convert.completion_moves` | propext, Quot.sound |
| `Cskk.Props.Convert.convert_known` | propext, Classical.choice, Quot.sound |
| `Cskk.Props.Convert.convert_nothing` | propext, Classical.choice, Quot.sound |
| `Cskk.Props.Convert.convert_shows` | propext, Classical.choice, Quot.sound |
| `Cskk.Props.Convert.convert_unknown` | propext, Classical.choice, Quot.sound |
| `Cskk.Props.Convert.shipped_space` | propext, Classical.choice, Quot.sound |
| `Cskk.Props.Convert.skip_of_absent` | propext, Classical.choice, Quot.sound |
| `Cskk.Props.Cursor.cursor_points_to_candidate` | propext, Classical.choice, Quot.sound |
| `Cskk.Props.Cursor.relookup_registration_breaks_cursor` | propext, Quot.sound |
| `Cskk.Props.Delete.backspace_is_delete` | propext, Classical.choice, Quot.sound |
| `Cskk.Props.Delete.delete_bare_mark` | propext |
| `Cskk.Props.Delete.delete_composing` | propext |
| `Cskk.Props.Delete.delete_direct` | propext |
| `Cskk.Props.Delete.delete_okurigana` | propext, Quot.sound |
| `Cskk.Props.Delete.delete_other` | propext |
| `Cskk.Props.DictFile.adjacent_separators_lost` | propext |
| `Cskk.Props.DictFile.backslash_lost` | propext |
| `Cskk.Props.DictFile.bracket_loses_line` | propext |
| `Cskk.Props.DictFile.emptied_group_misread` | propext |
| `Cskk.Props.DictFile.escape_no_separator` | propext, Quot.sound |
| `Cskk.Props.DictFile.escape_round_trip` | propext, Classical.choice, Quot.sound |
| `Cskk.Props.DictFile.line_round_trip` | propext, Classical.choice, Quot.sound |
| `Cskk.Props.DictFile.lookalike_reinterpreted` | propext |
| `Cskk.Props.DictGrammar.empty_concat_kept` | propext, Quot.sound |
| `Cskk.Props.DictGrammar.line_read` | propext, Classical.choice, Quot.sound |
| `Cskk.Props.DictGrammar.plain_line_iff` | propext, Classical.choice, Quot.sound |
| `Cskk.Props.DictGrammar.semicolon_in_annotation_loses_line` | propext, Classical.choice, Quot.sound |
| `Cskk.Props.DictGrammar.tolerated_lines` | propext |
| `Cskk.Props.DictGrammar.tolerated_orders` | propext |
| `Cskk.Props.DictSave.clean_not_written` | propext |
| `Cskk.Props.DictSave.crash_between_rename_and_create` | propext, Classical.choice, Quot.sound |
| `Cskk.Props.DictSave.crash_keeps_old` | propext, Classical.choice, Quot.sound |
| `Cskk.Props.DictSave.dirty_needs_edit` | propext |
| `Cskk.Props.DictSave.earlier_lines_do_not_matter` | propext, Quot.sound |
| `Cskk.Props.DictSave.edit_stays_dirty` | propext |
| `Cskk.Props.DictSave.last_line_wins` | propext, Quot.sound |
| `Cskk.Props.DictSave.lenient_line` | propext |
| `Cskk.Props.DictSave.load_saved` | propext, Classical.choice, Quot.sound |
| `Cskk.Props.DictSave.malformed_line_ignored` | propext, Quot.sound |
| `Cskk.Props.DictSave.malformed_text_ignored` | propext, Quot.sound |
| `Cskk.Props.DictSave.marked_iff` | propext, Classical.choice, Quot.sound |
| `Cskk.Props.DictSave.missing_file_untouched` | propext |
| `Cskk.Props.DictSave.no_blank_malformed` | propext, Quot.sound |
| `Cskk.Props.DictSave.odd_okuri_ari_moves` | propext |
| `Cskk.Props.DictSave.reload_keeps_dirty` | propext |
| `Cskk.Props.DictSave.reload_reverses_order` | propext, Classical.choice, Quot.sound |
| `Cskk.Props.DictSave.saveOps_complete` | propext, Classical.choice, Quot.sound |
| `Cskk.Props.DictSave.save_load_same_words` | propext, Classical.choice, Quot.sound |
| `Cskk.Props.DictSave.save_result` | propext |
| `Cskk.Props.DictSave.save_then_open` | propext, Classical.choice, Quot.sound |
| `Cskk.Props.DictSave.second_save_loses_backup` | propext, Classical.choice, Quot.sound |
| `Cskk.Props.DictSave.unencodable_dropped` | propext, Classical.choice, Quot.sound |
| `Cskk.Props.Disk.after_reload` | propext |
| `Cskk.Props.Disk.after_save` | propext, Classical.choice, Quot.sound |
| `Cskk.Props.Disk.all_saved` | propext, Classical.choice, Quot.sound |
| `Cskk.Props.Disk.as_if_one_by_one` | propext, Classical.choice, Quot.sound |
| `Cskk.Props.Disk.can_finish` | propext, Classical.choice, Quot.sound |
| `Cskk.Props.Disk.encodes_ascii` | propext, Quot.sound |
| `Cskk.Props.Disk.encodes_utf8` | propext, Classical.choice, Quot.sound |
| `Cskk.Props.Disk.example_run` | propext, Classical.choice, Quot.sound |
| `Cskk.Props.Disk.in_step` | propext, Classical.choice, Quot.sound |
| `Cskk.Props.Disk.no_deadlock` | propext, Quot.sound |
| `Cskk.Props.Disk.order_kept` | propext, Classical.choice, Quot.sound |
| `Cskk.Props.Disk.torn` | propext, Classical.choice, Quot.sound |
| `Cskk.Props.Document.letter_writes` | propext, Quot.sound |
| `Cskk.Props.Document.text_delivered` | propext, Classical.choice, Quot.sound |
| `Cskk.Props.Document.text_polled` | propext, Classical.choice, Quot.sound |
| `Cskk.Props.Document.writes` | propext, Classical.choice, Quot.sound |
| `Cskk.Props.Document.written` | propext, Classical.choice, Quot.sound |
| `Cskk.Props.Editing.asked_level` | propext |
| `Cskk.Props.Editing.backspace` | propext, Classical.choice, Quot.sound |
| `Cskk.Props.Editing.direct_edited` | propext, Classical.choice, Quot.sound |
| `Cskk.Props.Editing.direct_stroke` | propext, Classical.choice, Quot.sound |
| `Cskk.Props.Editing.emptied` | propext, Classical.choice, Quot.sound |
| `Cskk.Props.Editing.opens` | propext, Classical.choice, Quot.sound |
| `Cskk.Props.Editing.reading_edited` | propext, Classical.choice, Quot.sound |
| `Cskk.Props.Editing.reading_stroke` | propext, Classical.choice, Quot.sound |
| `Cskk.Props.Editing.same_line` | propext, Classical.choice, Quot.sound |
| `Cskk.Props.Editing.watasi_corrected` | propext, Quot.sound |
| `Cskk.Props.Editing.watasi_straight` | propext, Quot.sound |
| `Cskk.Props.Editing.word_corrected` | propext, Classical.choice, Quot.sound |
| `Cskk.Props.Editing.word_edited` | propext, Classical.choice, Quot.sound |
| `Cskk.Props.Entries.azik_ch` | propext, Classical.choice, Quot.sound |
| `Cskk.Props.Entries.azik_entries` | propext |
| `Cskk.Props.Entries.azik_names` | propext, Quot.sound |
| `Cskk.Props.Entries.default_entries` | propext |
| `Cskk.Props.Entries.n_waits` | propext, Classical.choice, Quot.sound |
| `Cskk.Props.Entries.shipped_entry_direct` | propext, Classical.choice, Quot.sound |
| `Cskk.Props.Entries.shipped_entry_reading` | propext, Classical.choice, Quot.sound |
| `Cskk.Props.EucJp.damage_confined` | propext, Classical.choice, Quot.sound |
| `Cskk.Props.EucJp.decode_encode` | propext, Classical.choice, Quot.sound |
| `Cskk.Props.EucJp.euc_save_then_open` | propext, Classical.choice, Quot.sound |
| `Cskk.Props.EucJp.given_back` | propext, Classical.choice, Quot.sound |
| `Cskk.Props.EucJp.lines_independent` | propext, Quot.sound |
| `Cskk.Props.EucJp.sample_euc` | propext, Quot.sound |
| `Cskk.Props.FileLines.documented_line_found` | propext, Classical.choice, Quot.sound |
| `Cskk.Props.FileLines.file_exactly` | propext, Classical.choice, Quot.sound |
| `Cskk.Props.FileLines.lines_iff` | propext, Classical.choice, Quot.sound |
| `Cskk.Props.Filing.loaded_exactly` | propext, Classical.choice, Quot.sound |
| `Cskk.Props.Filing.okuri_ari_line` | propext |
| `Cskk.Props.FormFile.ascii_file` | propext, Classical.choice, Quot.sound |
| `Cskk.Props.FormFile.broken_forms` | propext, Classical.choice, Quot.sound |
| `Cskk.Props.FormFile.fallback_starts` | propext, Classical.choice, Quot.sound |
| `Cskk.Props.FormFile.forms_seen` | propext |
| `Cskk.Props.FormFile.kana_file` | propext, Classical.choice, Quot.sound |
| `Cskk.Props.FormFile.no_files` | propext, Quot.sound |
| `Cskk.Props.Forms.Greedy.det` | propext, Quot.sound |
| `Cskk.Props.Forms.ascii_char_form` | propext, Quot.sound |
| `Cskk.Props.Forms.ascii_length_preserved` | propext, Quot.sound |
| `Cskk.Props.Forms.ascii_string_charwise` | propext, Quot.sound |
| `Cskk.Props.Forms.forms_seen` | propext |
| `Cskk.Props.Forms.kana_form_greedy` | propext, Quot.sound |
| `Cskk.Props.Forms.okuri_letter` | propext, Classical.choice, Quot.sound |
| `Cskk.Props.Forms.shipped_ascii_forms` | propext, Classical.choice, Quot.sound |
| `Cskk.Props.Forms.shipped_backquote_not_converted` | none |
| `Cskk.Props.Forms.shipped_half` | propext, Classical.choice, Quot.sound |
| `Cskk.Props.Forms.shipped_hiragana_to_katakana` | propext, Quot.sound |
| `Cskk.Props.Forms.shipped_katakana` | propext, Classical.choice, Quot.sound |
| `Cskk.Props.Forms.shipped_wide` | propext, Quot.sound |
| `Cskk.Props.Forms.shipped_wide_text` | propext, Quot.sound |
| `Cskk.Props.Front.c_refines` | propext, Classical.choice, Quot.sound |
| `Cskk.Props.Front.follow_sound` | propext, Quot.sound |
| `Cskk.Props.Front.follows_goes` | propext, Classical.choice, Quot.sound |
| `Cskk.Props.Front.plan_applies` | propext, Classical.choice, Quot.sound |
| `Cskk.Props.Front.plan_follows` | propext, Classical.choice, Quot.sound |
| `Cskk.Props.Front.plan_runs` | propext, Classical.choice, Quot.sound |
| `Cskk.Props.Front.says_goes` | propext, Classical.choice, Quot.sound |
| `Cskk.Props.Handles.allowed_never_fails` | propext, Classical.choice, Quot.sound |
| `Cskk.Props.Handles.first_null_drops_all` | propext, Quot.sound |
| `Cskk.Props.Handles.later_null_fails` | propext, Quot.sound |
| `Cskk.Props.Handles.lives_while_used` | propext, Classical.choice, Quot.sound |
| `Cskk.Props.Handles.nothing_leaks` | propext, Classical.choice, Quot.sound |
| `Cskk.Props.Handles.returned_pointers` | propext, Classical.choice, Quot.sound |
| `Cskk.Props.Handles.used_again_fails` | propext, Quot.sound |
| `Cskk.Props.KeyEvents.ascii_description_no_panic` | propext, Quot.sound |
| `Cskk.Props.KeyEvents.denote_length` | propext, Quot.sound |
| `Cskk.Props.KeyEvents.fcitx_drops_mod5` | propext, Classical.choice, Quot.sound |
| `Cskk.Props.KeyEvents.fcitx_event_normalised` | propext, Classical.choice, Quot.sound |
| `Cskk.Props.KeyEvents.fcitx_release_iff` | propext, Classical.choice, Quot.sound |
| `Cskk.Props.KeyEvents.flags_event` | propext, Classical.choice, Quot.sound |
| `Cskk.Props.KeyEvents.key_description_panics` | propext, Quot.sound |
| `Cskk.Props.KeyEvents.key_sequence_tokenwise` | propext, Classical.choice, Quot.sound |
| `Cskk.Props.KeyEvents.modifierless_iff` | propext, Quot.sound |
| `Cskk.Props.KeyEvents.white_space` | propext, Classical.choice, Quot.sound |
| `Cskk.Props.KeyInput.locks_disable_input` | propext, Quot.sound |
| `Cskk.Props.KeyInput.modified_without_command_inert` | propext, Quot.sound |
| `Cskk.Props.KeyInput.release_inert` | propext, Quot.sound |
| `Cskk.Props.KeyInput.releases_make_no_difference` | propext, Quot.sound |
| `Cskk.Props.KeyToken.paren_description` | propext, Classical.choice, Quot.sound |
| `Cskk.Props.KeyToken.plain_description` | propext, Quot.sound |
| `Cskk.Props.KeyToken.prefixed_description` | propext, Classical.choice, Quot.sound |
| `Cskk.Props.KeyToken.rule_keys` | propext, Quot.sound |
| `Cskk.Props.Label.euc_not_utf8` | propext, Classical.choice, Quot.sound |
| `Cskk.Props.Label.known_label` | propext, Quot.sound |
| `Cskk.Props.Label.sample_labels` | propext, Classical.choice, Quot.sound |
| `Cskk.Props.Label.unknown_label_destroys` | propext, Classical.choice, Quot.sound |
| `Cskk.Props.Label.unknown_label_drops_lines` | propext |
| `Cskk.Props.Label.unknown_label_reads_utf8` | propext, Classical.choice, Quot.sound |
| `Cskk.Props.Label.unknown_label_save_panics` | propext, Classical.choice, Quot.sound |
| `Cskk.Props.Label.utf16_opens` | propext, Classical.choice, Quot.sound |
| `Cskk.Props.Label.utf16_read` | propext, Classical.choice, Quot.sound |
| `Cskk.Props.Label.utf16_save_loses_all` | propext, Classical.choice, Quot.sound |
| `Cskk.Props.Levels.abort_in_direct_reopens_composition` | propext, Quot.sound |
| `Cskk.Props.Levels.abort_returns` | propext, Quot.sound |
| `Cskk.Props.Levels.abort_undoes_change` | propext, Quot.sound |
| `Cskk.Props.Levels.azik_rule_sensible` | propext |
| `Cskk.Props.Levels.default_rule_sensible` | propext |
| `Cskk.Props.Levels.depth_bounded` | propext, Classical.choice, Quot.sound |
| `Cskk.Props.Levels.history_bounded` | propext, Classical.choice, Quot.sound |
| `Cskk.Props.Levels.levels_shape` | propext, Classical.choice, Quot.sound |
| `Cskk.Props.Levels.nest_brackets` | propext, Quot.sound |
| `Cskk.Props.Levels.preedit_brackets` | propext, Classical.choice, Quot.sound |
| `Cskk.Props.Levels.preedit_nested` | propext, Classical.choice, Quot.sound |
| `Cskk.Props.Levels.reset_behaves_as_new` | propext, Quot.sound |
| `Cskk.Props.Levels.reset_in_other_mode` | propext, Quot.sound |
| `Cskk.Props.Levels.reset_in_registration` | propext, Classical.choice, Quot.sound |
| `Cskk.Props.Levels.reset_result` | propext, Quot.sound |
| `Cskk.Props.Levels.reset_while_composing` | propext, Quot.sound |
| `Cskk.Props.Levels.stuck_forever` | propext, Quot.sound |
| `Cskk.Props.Levels.stuck_is_reached` | propext, Quot.sound |
| `Cskk.Props.Levels.stuck_panics` | propext, Quot.sound |
| `Cskk.Props.Levels.stuck_step` | propext, Quot.sound |
| `Cskk.Props.Life.held_plain` | propext, Classical.choice, Quot.sound |
| `Cskk.Props.Life.life_seen` | propext, Classical.choice, Quot.sound |
| `Cskk.Props.Life.life_told` | propext, Classical.choice, Quot.sound |
| `Cskk.Props.Life.openAll_held` | propext, Classical.choice, Quot.sound |
| `Cskk.Props.Life.told_happens` | propext, Classical.choice, Quot.sound |
| `Cskk.Props.Lists.offered_only_while_choosing` | propext, Classical.choice, Quot.sound |
| `Cskk.Props.Lists.reached` | propext, Quot.sound |
| `Cskk.Props.Lists.set_by_hand` | propext, Quot.sound |
| `Cskk.Props.Lists.shipped_tidy` | propext |
| `Cskk.Props.Locks.changes_are_programs` | propext |
| `Cskk.Props.Locks.complete_alone` | propext |
| `Cskk.Props.Locks.complete_is_reader` | propext |
| `Cskk.Props.Locks.concurrent_lookup` | propext, Quot.sound |
| `Cskk.Props.Locks.confirm_alone` | propext, Quot.sound |
| `Cskk.Props.Locks.dictionary_is_log` | propext, Quot.sound |
| `Cskk.Props.Locks.isolated` | propext, Quot.sound |
| `Cskk.Props.Locks.lookup_alone` | propext, Quot.sound |
| `Cskk.Props.Locks.lookup_is_reader` | propext |
| `Cskk.Props.Locks.never_poisoned` | propext |
| `Cskk.Props.Locks.no_deadlock` | propext, Quot.sound |
| `Cskk.Props.Locks.no_endless_execution` | propext, Quot.sound |
| `Cskk.Props.Locks.poisoned_for_all` | propext, Quot.sound |
| `Cskk.Props.Locks.purge_alone` | propext, Quot.sound |
| `Cskk.Props.Locks.reads_are_consistent` | propext, Quot.sound |
| `Cskk.Props.Locks.stuck_is_finished` | propext, Classical.choice, Quot.sound |
| `Cskk.Props.Locks.torn_lookup` | propext |
| `Cskk.Props.Locks.write_alone` | propext, Quot.sound |
| `Cskk.Props.Lru.back_wrong` | propext |
| `Cskk.Props.Lru.both_ends` | propext, Classical.choice, Quot.sound |
| `Cskk.Props.Lru.container_refines` | propext, Classical.choice, Quot.sound |
| `Cskk.Props.Lru.container_results` | propext, Classical.choice, Quot.sound |
| `Cskk.Props.Lru.fronts_ideal` | propext |
| `Cskk.Props.Lru.iter_rev_wrong` | none |
| `Cskk.Props.Lru.sorted_back_panics` | propext, Classical.choice, Quot.sound |
| `Cskk.Props.Machine.act_goes` | propext, Classical.choice, Quot.sound |
| `Cskk.Props.Machine.all_seen` | propext, Classical.choice, Quot.sound |
| `Cskk.Props.Machine.announced` | propext, Classical.choice, Quot.sound |
| `Cskk.Props.Machine.answers_key` | propext, Classical.choice, Quot.sound |
| `Cskk.Props.Machine.answers_printable` | propext, Classical.choice, Quot.sound |
| `Cskk.Props.Machine.calls_seen` | propext, Quot.sound |
| `Cskk.Props.Machine.confirm_at_goes` | propext, Classical.choice, Quot.sound |
| `Cskk.Props.Machine.control_goes` | propext, Classical.choice, Quot.sound |
| `Cskk.Props.Machine.control_seen` | propext, Quot.sound |
| `Cskk.Props.Machine.detail_seen` | propext |
| `Cskk.Props.Machine.foresight` | propext, Classical.choice, Quot.sound |
| `Cskk.Props.Machine.foresight_met` | propext, Quot.sound |
| `Cskk.Props.Machine.fresh_at` | propext, Quot.sound |
| `Cskk.Props.Machine.given_up_seen` | propext, Quot.sound |
| `Cskk.Props.Machine.leftovers_seen` | propext, Quot.sound |
| `Cskk.Props.Machine.lone_n_aside` | propext, Quot.sound |
| `Cskk.Props.Machine.marks_convert` | propext, Quot.sound |
| `Cskk.Props.Machine.next_key` | propext, Classical.choice, Quot.sound |
| `Cskk.Props.Machine.next_key_applies` | propext, Quot.sound |
| `Cskk.Props.Machine.number_words_seen` | propext, Quot.sound |
| `Cskk.Props.Machine.numbers_seen` | propext, Quot.sound |
| `Cskk.Props.Machine.plain_goes` | propext, Classical.choice, Quot.sound |
| `Cskk.Props.Machine.poll_goes` | propext |
| `Cskk.Props.Machine.press_goes` | propext, Classical.choice, Quot.sound |
| `Cskk.Props.Machine.reading_seen` | propext |
| `Cskk.Props.Machine.registration_details` | propext, Quot.sound |
| `Cskk.Props.Machine.screen_shown` | propext, Quot.sound |
| `Cskk.Props.Machine.select_goes` | propext, Classical.choice, Quot.sound |
| `Cskk.Props.Machine.session_done` | propext, Classical.choice, Quot.sound |
| `Cskk.Props.Machine.session_seen` | propext, Quot.sound |
| `Cskk.Props.Machine.session_seen'` | propext, Quot.sound |
| `Cskk.Props.Machine.session_seen''` | propext, Quot.sound |
| `Cskk.Props.Machine.shown_details` | propext, Quot.sound |
| `Cskk.Props.Machine.taken_exactly` | propext, Classical.choice, Quot.sound |
| `Cskk.Props.Machine.use_goes` | propext, Classical.choice, Quot.sound |
| `Cskk.Props.Machine.use_refines` | propext, Classical.choice, Quot.sound |
| `Cskk.Props.Machine.useless_handed` | propext, Classical.choice, Quot.sound |
| `Cskk.Props.Machine.view_seen` | propext, Classical.choice, Quot.sound |
| `Cskk.Props.Merge.dedup_merge` | propext, Classical.choice, Quot.sound |
| `Cskk.Props.Merge.offered_exactly` | propext, Classical.choice, Quot.sound |
| `Cskk.Props.ModeKeys.azik_mode_keys` | propext, Classical.choice, Quot.sound |
| `Cskk.Props.ModeKeys.back_to_kana` | propext, Quot.sound |
| `Cskk.Props.ModeKeys.commit_drops_okurigana` | propext, Quot.sound |
| `Cskk.Props.ModeKeys.commit_reading` | propext, Classical.choice, Quot.sound |
| `Cskk.Props.ModeKeys.commit_reading_only` | propext, Classical.choice, Quot.sound |
| `Cskk.Props.ModeKeys.default_abbreviation` | propext, Classical.choice, Quot.sound |
| `Cskk.Props.ModeKeys.default_commit_keys` | propext, Classical.choice, Quot.sound |
| `Cskk.Props.ModeKeys.default_half_width` | propext, Classical.choice, Quot.sound |
| `Cskk.Props.ModeKeys.default_mode_keys` | propext, Classical.choice, Quot.sound |
| `Cskk.Props.ModeKeys.half_width_commit_drops_pending` | propext, Quot.sound |
| `Cskk.Props.ModeKeys.half_width_key_commits_hiragana` | propext, Quot.sound |
| `Cskk.Props.ModeKeys.pending_survives_Q_and_slash` | propext, Quot.sound |
| `Cskk.Props.ModeKeys.switch_mode` | propext, Classical.choice, Quot.sound |
| `Cskk.Props.ModeKeys.toggle_twice` | propext, Classical.choice, Quot.sound |
| `Cskk.Props.Navigate.next_at_end` | propext, Quot.sound |
| `Cskk.Props.Navigate.next_moves` | propext, Quot.sound |
| `Cskk.Props.Navigate.next_repeated` | propext, Quot.sound |
| `Cskk.Props.Navigate.next_shows` | propext, Quot.sound |
| `Cskk.Props.Navigate.previous_at_start` | propext, Quot.sound |
| `Cskk.Props.Navigate.previous_moves` | propext, Quot.sound |
| `Cskk.Props.Navigate.previous_undoes_next` | propext, Quot.sound |
| `Cskk.Props.Navigate.select_negative` | propext, Quot.sound |
| `Cskk.Props.Navigate.select_nothing` | propext |
| `Cskk.Props.Navigate.select_past_end` | propext, Quot.sound |
| `Cskk.Props.Navigate.select_valid` | propext, Quot.sound |
| `Cskk.Props.Navigate.shipped_keys` | propext, Quot.sound |
| `Cskk.Props.Navigate.unchosen_shows` | propext |
| `Cskk.Props.NoPanic.call_never_panics` | propext, Classical.choice, Quot.sound |
| `Cskk.Props.NoPanic.cancel_after_back_crashes_debug` | propext, Quot.sound |
| `Cskk.Props.NoPanic.history_never_panics` | propext, Classical.choice, Quot.sound |
| `Cskk.Props.NoPanic.key_never_panics` | propext, Classical.choice, Quot.sound |
| `Cskk.Props.NoPanic.shipped_never_panics` | propext, Classical.choice, Quot.sound |
| `Cskk.Props.NoPanic.twenty_digits_panic` | propext, Quot.sound |
| `Cskk.Props.Numeric.daiji_injective` | propext, Classical.choice, Quot.sound |
| `Cskk.Props.Numeric.daiji_reads_back` | propext, Classical.choice, Quot.sound |
| `Cskk.Props.Numeric.daiji_too_large` | propext, Classical.choice, Quot.sound |
| `Cskk.Props.Numeric.digits_of_scripts` | propext, Classical.choice, Quot.sound |
| `Cskk.Props.Numeric.fullwidth_digit_panics` | propext |
| `Cskk.Props.Numeric.huge_number_panics` | propext, Classical.choice, Quot.sound |
| `Cskk.Props.Numeric.kanji_each_charwise` | propext, Quot.sound |
| `Cskk.Props.Numeric.kanji_each_reversible` | propext, Quot.sound |
| `Cskk.Props.Numeric.marker_meaning` | propext, Classical.choice, Quot.sound |
| `Cskk.Props.Numeric.numeric_key_correct` | propext, Quot.sound |
| `Cskk.Props.Numeric.numeric_key_count` | propext, Quot.sound |
| `Cskk.Props.Numeric.numeric_key_no_digits` | propext, Quot.sound |
| `Cskk.Props.Numeric.numeric_no_panic` | propext, Classical.choice, Quot.sound |
| `Cskk.Props.Numeric.simple_kanji_injective` | propext, Classical.choice, Quot.sound |
| `Cskk.Props.Numeric.simple_kanji_reads_back` | propext, Classical.choice, Quot.sound |
| `Cskk.Props.Numeric.simple_kanji_too_large` | propext, Classical.choice, Quot.sound |
| `Cskk.Props.Numeric.template_filled` | propext, Classical.choice, Quot.sound |
| `Cskk.Props.Numeric.template_filled_counterexample` | propext |
| `Cskk.Props.Numeric.thousand_any_digits` | propext, Quot.sound |
| `Cskk.Props.Numeric.thousand_reversible` | propext, Classical.choice, Quot.sound |
| `Cskk.Props.Numeric.thousand_separator_groups` | propext, Classical.choice, Quot.sound |
| `Cskk.Props.Numeric.thousand_separator_removable` | propext, Classical.choice, Quot.sound |
| `Cskk.Props.Numeric.thousand_wide_digits` | propext, Classical.choice, Quot.sound |
| `Cskk.Props.Numeric.zenkaku_charwise` | propext, Quot.sound |
| `Cskk.Props.Numeric.zenkaku_reversible` | propext, Quot.sound |
| `Cskk.Props.NumericOffer.offered_list` | propext, Classical.choice, Quot.sound |
| `Cskk.Props.NumericOffer.template_learned` | propext, Classical.choice, Quot.sound |
| `Cskk.Props.Office.day_goes` | propext, Classical.choice, Quot.sound |
| `Cskk.Props.Office.office_refines` | propext, Classical.choice, Quot.sound |
| `Cskk.Props.Office.other_screens` | propext, Quot.sound |
| `Cskk.Props.Office.turn_goes` | propext, Classical.choice, Quot.sound |
| `Cskk.Props.Office.turns_done` | propext, Classical.choice, Quot.sound |
| `Cskk.Props.Office.turns_seen` | propext, Quot.sound |
| `Cskk.Props.Office.view_stands` | propext, Classical.choice, Quot.sound |
| `Cskk.Props.Output.backspace_erases_undelivered_text` | propext, Quot.sound |
| `Cskk.Props.Output.detail_parts` | propext |
| `Cskk.Props.Output.poll_and_preedit` | propext, Quot.sound |
| `Cskk.Props.Output.poll_changes_only_output` | propext |
| `Cskk.Props.Output.poll_returns_pending` | propext |
| `Cskk.Props.Output.polls_do_no_harm` | propext, Classical.choice, Quot.sound |
| `Cskk.Props.Output.polls_do_not_matter` | propext, Classical.choice, Quot.sound |
| `Cskk.Props.Output.preedit_spells_detail` | propext, Quot.sound |
| `Cskk.Props.Output.retrieve_is_pure` | propext |
| `Cskk.Props.Output.schedules_deliver_the_same` | propext, Classical.choice, Quot.sound |
| `Cskk.Props.Output.second_poll_returns_nothing` | propext |
| `Cskk.Props.Output.typing_delivered_exactly_once` | propext, Classical.choice, Quot.sound |
| `Cskk.Props.Persist.clean_survives_restart` | propext, Classical.choice, Quot.sound |
| `Cskk.Props.Persist.create_failure_loses_file` | propext, Classical.choice, Quot.sound |
| `Cskk.Props.Persist.empty_file_plain` | propext, Classical.choice, Quot.sound |
| `Cskk.Props.Persist.history_is_its_edits` | propext, Classical.choice, Quot.sound |
| `Cskk.Props.Persist.life_as_expected` | propext, Classical.choice, Quot.sound |
| `Cskk.Props.Persist.missing_file_never_saved` | propext |
| `Cskk.Props.Persist.retry_saves_everything` | propext, Classical.choice, Quot.sound |
| `Cskk.Props.Persist.save_report` | propext, Classical.choice, Quot.sound |
| `Cskk.Props.Persist.two_failures_lose_both` | propext |
| `Cskk.Props.Reading.deleting_okurigana_changes_lookup` | propext, Quot.sound |
| `Cskk.Props.Reading.empty_reading_registered` | propext, Quot.sound |
| `Cskk.Props.Reading.is_shown_seen` | propext, Quot.sound |
| `Cskk.Props.Reading.lookup_is_shown` | propext, Classical.choice, Quot.sound |
| `Cskk.Props.Reading.lookup_uses_shown_reading` | propext, Classical.choice, Quot.sound |
| `Cskk.Props.Reading.lookup_within_shown` | propext, Classical.choice, Quot.sound |
| `Cskk.Props.Reading.readings_agree` | propext, Classical.choice, Quot.sound |
| `Cskk.Props.Reading.within_shown_seen` | propext, Quot.sound |
| `Cskk.Props.Register.exit_confirms` | propext |
| `Cskk.Props.Register.okurigana_registration_not_found` | propext, Quot.sound |
| `Cskk.Props.Register.punctuation_registration_not_found` | propext, Quot.sound |
| `Cskk.Props.Register.registered_word_offered` | propext, Classical.choice, Quot.sound |
| `Cskk.Props.Registration.cancel_restores` | propext, Classical.choice, Quot.sound |
| `Cskk.Props.Registration.cancel_undoes` | propext, Classical.choice, Quot.sound |
| `Cskk.Props.Registration.key_step` | propext, Quot.sound |
| `Cskk.Props.Registration.return_empty` | propext, Classical.choice, Quot.sound |
| `Cskk.Props.Registration.return_outside` | propext, Classical.choice, Quot.sound |
| `Cskk.Props.Registration.return_registers` | propext, Classical.choice, Quot.sound |
| `Cskk.Props.Registration.shipped_abortLast` | propext, Quot.sound |
| `Cskk.Props.Registration.shipped_ends` | propext, Quot.sound |
| `Cskk.Props.Registration.unknown_word_given_up` | propext, Classical.choice, Quot.sound |
| `Cskk.Props.Registration.waiting_hides_committed` | propext, Quot.sound |
| `Cskk.Props.Registration.waiting_untouched` | propext, Quot.sound |
| `Cskk.Props.Romaji.Entry.det` | propext, Classical.choice, Quot.sound |
| `Cskk.Props.Romaji.can_continue_iff` | propext, Classical.choice, Quot.sound |
| `Cskk.Props.Romaji.can_continue_lower_iff` | propext, Classical.choice, Quot.sound |
| `Cskk.Props.Romaji.convert_greedy_iff` | propext, Classical.choice, Quot.sound |
| `Cskk.Props.Romaji.convert_non_partial_iff` | propext, Classical.choice, Quot.sound |
| `Cskk.Props.Romaji.next_state_begins` | propext, Classical.choice, Quot.sound |
| `Cskk.Props.Romaji.next_state_spec` | propext, Classical.choice, Quot.sound |
| `Cskk.Props.RuleFile.accepted_iff` | propext, Quot.sound |
| `Cskk.Props.RuleFile.captures_iff` | propext, Quot.sound |
| `Cskk.Props.RuleFile.commands_in_effect` | propext, Quot.sound |
| `Cskk.Props.RuleFile.instruction_means` | propext, Quot.sound |
| `Cskk.Props.RuleFile.key_has_listed_command` | propext, Quot.sound |
| `Cskk.Props.RuleFile.spelling_read` | none |
| `Cskk.Props.RuleFile.surplus_accepted` | propext, Quot.sound |
| `Cskk.Props.RuleFiles.azik_text` | propext, Quot.sound |
| `Cskk.Props.RuleFiles.default_text` | propext, Quot.sound |
| `Cskk.Props.RuleFiles.kana_key_panics` | propext, Quot.sound |
| `Cskk.Props.RuleFiles.shipped_proper` | none |
| `Cskk.Props.RuleList.c_rules_listed` | propext, Classical.choice, Quot.sound |
| `Cskk.Props.RuleList.rule_chosen` | propext, Classical.choice, Quot.sound |
| `Cskk.Props.RuleList.rules_listed` | propext, Classical.choice, Quot.sound |
| `Cskk.Props.RuleList.shipped_list` | propext, Classical.choice, Quot.sound |
| `Cskk.Props.RuleList.shipped_metadata` | propext, Quot.sound |
| `Cskk.Props.RuleLoad.bare_context_types` | propext, Classical.choice, Quot.sound |
| `Cskk.Props.RuleLoad.empty_variable_hides_home` | propext, Quot.sound |
| `Cskk.Props.RuleLoad.fallback_context` | propext, Quot.sound |
| `Cskk.Props.RuleLoad.found_is_first` | propext, Quot.sound |
| `Cskk.Props.RuleLoad.not_found_iff` | propext, Quot.sound |
| `Cskk.Props.RuleLoad.rule_path` | propext |
| `Cskk.Props.RuleLoad.set_rule_failed` | none |
| `Cskk.Props.RuleLoad.set_rule_ok` | propext, Quot.sound |
| `Cskk.Props.RuleText.ambiguous_entries_depend_on_order` | propext |
| `Cskk.Props.RuleText.load_order_irrelevant` | propext, Classical.choice, Quot.sound |
| `Cskk.Props.RuleText.loaded_continues` | propext, Classical.choice, Quot.sound |
| `Cskk.Props.RuleText.loaded_continues_lower` | propext, Classical.choice, Quot.sound |
| `Cskk.Props.RuleText.loaded_final` | propext, Classical.choice, Quot.sound |
| `Cskk.Props.RuleText.loaded_value` | propext, Classical.choice, Quot.sound |
| `Cskk.Props.SameWords.learned_session` | propext, Classical.choice, Quot.sound |
| `Cskk.Props.SameWords.reopened_same` | propext, Classical.choice, Quot.sound |
| `Cskk.Props.SameWords.restart_invisible` | propext, Classical.choice, Quot.sound |
| `Cskk.Props.SameWords.same_key` | propext, Classical.choice, Quot.sound |
| `Cskk.Props.SameWords.same_observations` | propext, Quot.sound |
| `Cskk.Props.SameWords.same_step` | propext, Classical.choice, Quot.sound |
| `Cskk.Props.SameWords.same_words_same_behaviour` | propext, Classical.choice, Quot.sound |
| `Cskk.Props.SameWords.same_words_same_text` | propext, Classical.choice, Quot.sound |
| `Cskk.Props.Screens.act_write` | propext, Classical.choice, Quot.sound |
| `Cskk.Props.Screens.acts_writes` | propext, Classical.choice, Quot.sound |
| `Cskk.Props.Screens.registration_leaks` | propext, Quot.sound |
| `Cskk.Props.Screens.schedules_agree` | propext, Classical.choice, Quot.sound |
| `Cskk.Props.Screens.shipped_deletes` | propext |
| `Cskk.Props.Screens.shipped_gentle` | propext |
| `Cskk.Props.Screens.writes_withoutPolls` | propext, Classical.choice, Quot.sound |
| `Cskk.Props.Session.file_is_a_backup` | propext, Classical.choice, Quot.sound |
| `Cskk.Props.Session.lost_file_never_saved` | propext, Classical.choice, Quot.sound |
| `Cskk.Props.Session.other_files_untouched` | propext, Classical.choice, Quot.sound |
| `Cskk.Props.Session.restart_forgets_nothing` | propext, Classical.choice, Quot.sound |
| `Cskk.Props.Session.sample_end` | propext, Classical.choice, Quot.sound |
| `Cskk.Props.Session.sample_restart` | propext, Classical.choice, Quot.sound |
| `Cskk.Props.Session.save_completes` | propext, Classical.choice, Quot.sound |
| `Cskk.Props.Session.save_each` | propext, Classical.choice, Quot.sound |
| `Cskk.Props.Session.session_in_step` | propext, Classical.choice, Quot.sound |
| `Cskk.Props.Session.shared_file_last_wins` | propext, Classical.choice, Quot.sound |
| `Cskk.Props.ShiftKey.azik_brace` | propext, Quot.sound |
| `Cskk.Props.ShiftKey.shifted_letter` | propext, Quot.sound |
| `Cskk.Props.ShiftKey.shifted_sign` | propext, Quot.sound |
| `Cskk.Props.ShippedTyping.pending_dropped` | propext, Quot.sound |
| `Cskk.Props.ShippedTyping.shipped_noCommand` | propext, Quot.sound |
| `Cskk.Props.ShippedTyping.shipped_spelled` | propext, Classical.choice, Quot.sound |
| `Cskk.Props.ShippedTyping.shipped_word` | propext, Classical.choice, Quot.sound |
| `Cskk.Props.Stale.corrected_examples` | propext, Quot.sound |
| `Cskk.Props.Stale.corrected_start` | propext, Classical.choice, Quot.sound |
| `Cskk.Props.Stale.stale_capital_is_small` | propext, Classical.choice, Quot.sound |
| `Cskk.Props.Strays.careless_seen` | propext, Classical.choice, Quot.sound |
| `Cskk.Props.Strays.refiled_seen` | propext, Classical.choice, Quot.sound |
| `Cskk.Props.Strays.registered_then_refiled` | propext, Classical.choice, Quot.sound |
| `Cskk.Props.Strays.words_refiled` | propext, Classical.choice, Quot.sound |
| `Cskk.Props.Taken.all_taken` | propext, Classical.choice, Quot.sound |
| `Cskk.Props.Taken.cancelled_list` | propext, Quot.sound |
| `Cskk.Props.Taken.cancelled_list_stops` | propext, Quot.sound |
| `Cskk.Props.Taken.cancelled_mode` | propext, Quot.sound |
| `Cskk.Props.Taken.character_taken` | propext, Classical.choice, Quot.sound |
| `Cskk.Props.Taken.character_uncancelled` | propext, Quot.sound |
| `Cskk.Props.Taken.lost_handed_back` | propext, Quot.sound |
| `Cskk.Props.Taken.never_lost` | propext, Classical.choice, Quot.sound |
| `Cskk.Props.Teach.hon_taught` | propext, Classical.choice, Quot.sound |
| `Cskk.Props.Teach.offered` | propext, Classical.choice, Quot.sound |
| `Cskk.Props.Teach.recalled` | propext, Classical.choice, Quot.sound |
| `Cskk.Props.Teach.taught_for_ever` | propext, Classical.choice, Quot.sound |
| `Cskk.Props.Teach.teaching` | propext, Classical.choice, Quot.sound |
| `Cskk.Props.Teach.text_typed` | propext, Classical.choice, Quot.sound |
| `Cskk.Props.TomlText.azik_file` | propext |
| `Cskk.Props.TomlText.blank_line` | propext, Quot.sound |
| `Cskk.Props.TomlText.default_file` | propext |
| `Cskk.Props.TomlText.document_iff` | propext, Quot.sound |
| `Cskk.Props.TomlText.form_files` | propext |
| `Cskk.Props.TomlText.metadata_file` | propext |
| `Cskk.Props.TomlText.ruleFile_iff` | propext, Classical.choice, Quot.sound |
| `Cskk.Props.TomlText.shipped_rules` | propext, Classical.choice, Quot.sound |
| `Cskk.Props.TomlText.shipped_seen` | propext, Classical.choice, Quot.sound |
| `Cskk.Props.TomlText.table_order` | propext, Classical.choice, Quot.sound |
| `Cskk.Props.TomlText.text_accepted` | propext, Classical.choice, Quot.sound |
| `Cskk.Props.TomlText.text_in_effect` | propext, Classical.choice, Quot.sound |
| `Cskk.Props.TypeOn.backspace_confirms` | propext, Quot.sound |
| `Cskk.Props.TypeOn.confirm_settles` | propext |
| `Cskk.Props.TypeOn.key_settles` | propext, Quot.sound |
| `Cskk.Props.TypeOn.mode_keys_typed` | propext, Classical.choice, Quot.sound |
| `Cskk.Props.TypeOn.pending_goes_on` | propext, Quot.sound |
| `Cskk.Props.TypeOn.shipped_typing_on` | propext, Classical.choice, Quot.sound |
| `Cskk.Props.TypeOn.typing_on` | propext, Classical.choice, Quot.sound |
| `Cskk.Props.TypeOn.typing_on_text` | propext, Classical.choice, Quot.sound |
| `Cskk.Props.Typing.spelled_direct` | propext, Classical.choice, Quot.sound |
| `Cskk.Props.Typing.spelled_reading` | propext, Classical.choice, Quot.sound |
| `Cskk.Props.Typing.typing_direct` | propext, Classical.choice, Quot.sound |
| `Cskk.Props.Typing.typing_reading` | propext, Classical.choice, Quot.sound |
| `Cskk.Props.UserDict.confirm_changes_nothing_else` | propext, Quot.sound |
| `Cskk.Props.UserDict.confirm_is_a_swap` | propext |
| `Cskk.Props.UserDict.confirm_moves_to_front` | propext, Quot.sound |
| `Cskk.Props.UserDict.confirmed_first` | propext, Quot.sound |
| `Cskk.Props.UserDict.purge_changes_nothing_else` | propext, Quot.sound |
| `Cskk.Props.UserDict.purge_duplicate_survives` | none |
| `Cskk.Props.UserDict.purge_keeps_other_okuri` | none |
| `Cskk.Props.UserDict.purge_removes` | propext, Quot.sound |
| `Cskk.Props.UserDict.purged_not_listed` | propext, Quot.sound |
| `Cskk.Props.UserDict.read_only_unchanged` | propext |
| `Cskk.Props.UserDict.wf_history` | propext, Quot.sound |
| `Cskk.Props.Utf8.damage_confined` | propext, Classical.choice, Quot.sound |
| `Cskk.Props.Utf8.decode_encode` | propext, Classical.choice, Quot.sound |
| `Cskk.Props.Utf8.decode_no_newline` | propext, Quot.sound |
| `Cskk.Props.Utf8.empty_text_refused` | none |
| `Cskk.Props.Utf8.lines_independent` | propext, Quot.sound |
| `Cskk.Props.Utf8.long_text_encoded` | propext, Quot.sound |
| `Cskk.Props.Utf8.truncated_file` | propext, Quot.sound |
| `Cskk.Props.Utf8.utf8_save_then_open` | propext, Classical.choice, Quot.sound |
| `Cskk.Props.WayBack.after_any_history` | propext, Classical.choice, Quot.sound |
| `Cskk.Props.WayBack.always_a_way` | propext, Classical.choice, Quot.sound |
| `Cskk.Props.WayBack.back_leads` | propext, Classical.choice, Quot.sound |
| `Cskk.Props.WillProcess.agree_letters` | propext, Classical.choice, Quot.sound |
| `Cskk.Props.WillProcess.agree_selection` | propext, Classical.choice, Quot.sound |
| `Cskk.Props.WillProcess.azik_table_ascii` | propext, Classical.choice, Quot.sound |
| `Cskk.Props.WillProcess.command_announced` | propext, Classical.choice, Quot.sound |
| `Cskk.Props.WillProcess.command_consumed` | propext |
| `Cskk.Props.WillProcess.command_decided` | propext, Quot.sound |
| `Cskk.Props.WillProcess.consumed_iff_romaji` | propext, Classical.choice, Quot.sound |
| `Cskk.Props.WillProcess.default_table_ascii` | propext, Classical.choice, Quot.sound |
| `Cskk.Props.WillProcess.disagree_iff_romaji` | propext, Classical.choice, Quot.sound |
| `Cskk.Props.WillProcess.disagreements` | propext, Quot.sound |
| `Cskk.Props.WillProcess.no_false_promise` | propext, Classical.choice, Quot.sound |
| `Cskk.Props.WillProcess.will_process_iff` | propext, Classical.choice, Quot.sound |
| `Cskk.Props.Wishes.azik_covers` | propext |
| `Cskk.Props.Wishes.azik_never` | propext |
| `Cskk.Props.Wishes.begins_with_mark` | propext, Quot.sound |
| `Cskk.Props.Wishes.default_covers` | propext |
| `Cskk.Props.Wishes.every_short` | propext, Classical.choice, Quot.sound |
| `Cskk.Props.Wishes.every_word` | propext, Classical.choice, Quot.sound |
| `Cskk.Props.Wishes.everything_can_be_written` | propext, Classical.choice, Quot.sound |
| `Cskk.Props.Wishes.katakana_form` | propext |
| `Cskk.Props.Wishes.readable_default` | propext |
| `Cskk.Props.WordCycle.cancel_after_purge` | propext, Classical.choice, Quot.sound |
| `Cskk.Props.WordCycle.candidate_side` | propext, Classical.choice, Quot.sound |
| `Cskk.Props.WordCycle.confirm_cycle` | propext, Classical.choice, Quot.sound |
| `Cskk.Props.WordCycle.confirm_words` | propext, Quot.sound |
| `Cskk.Props.WordCycle.offered_after_confirm` | propext, Classical.choice, Quot.sound |
| `Cskk.Props.WordCycle.offered_after_purge` | propext, Classical.choice, Quot.sound |
| `Cskk.Props.WordCycle.purge_cycle` | propext, Classical.choice, Quot.sound |
| `Cskk.Props.WordCycle.purge_words` | propext, Quot.sound |
| `Cskk.Props.WordCycle.purged_gone` | propext, Classical.choice, Quot.sound |
| `Cskk.Props.WordCycle.purged_level_empty` | propext |
| `Cskk.Props.Words.keyword_converts` | propext, Classical.choice, Quot.sound |
| `Cskk.Props.Words.okuri_begins` | propext, Classical.choice, Quot.sound |
| `Cskk.Props.Words.okuri_begins_after` | propext, Classical.choice, Quot.sound |
| `Cskk.Props.Words.okuri_key` | propext, Classical.choice, Quot.sound |
| `Cskk.Props.Words.okuri_sokuon` | propext, Classical.choice, Quot.sound |
| `Cskk.Props.Words.okuri_starts` | propext, Classical.choice, Quot.sound |
| `Cskk.Props.Words.okuri_typed` | propext, Classical.choice, Quot.sound |
| `Cskk.Props.Words.okuri_word_converted` | propext, Classical.choice, Quot.sound |
| `Cskk.Props.Words.word_begins` | propext, Classical.choice, Quot.sound |
| `Cskk.Props.Words.word_begins_after` | propext, Classical.choice, Quot.sound |
| `Cskk.Props.Words.word_converted` | propext, Classical.choice, Quot.sound |
| `Cskk.Props.Words.word_starts` | propext, Classical.choice, Quot.sound |
| `Cskk.Props.Words.word_starts_fresh` | propext, Classical.choice, Quot.sound |
| `Cskk.Props.Words.word_typed` | propext, Classical.choice, Quot.sound |
| `Cskk.Props.World.confirm_brings_back` | propext, Quot.sound |
| `Cskk.Props.World.confirmed_seen_by_others` | propext, Classical.choice, Quot.sound |
| `Cskk.Props.World.confirming_stale_word_restores_it` | propext, Quot.sound |
| `Cskk.Props.World.independent` | propext, Classical.choice, Quot.sound |
| `Cskk.Props.World.no_lost_updates` | propext, Classical.choice, Quot.sound |
| `Cskk.Props.World.others_keep_state` | propext, Quot.sound |
| `Cskk.Props.World.purge_elsewhere` | propext, Quot.sound |
| `Cskk.Props.World.shared_static_constant` | propext, Classical.choice, Quot.sound |
| `Cskk.Props.World.shared_well_formed` | propext, Classical.choice, Quot.sound |
| `Cskk.Props.Xdg.empty_directory_hides` | propext, Quot.sound |
| `Cskk.Props.Xdg.empty_variable_splits` | propext, Quot.sound |
| `Cskk.Props.Xdg.found_and_remembered` | propext, Classical.choice, Quot.sound |
| `Cskk.Props.Xdg.homeless` | propext, Quot.sound |
| `Cskk.Props.Xdg.life_from_environment` | propext, Classical.choice, Quot.sound |
| `Cskk.Props.Xdg.no_home` | none |
| `Cskk.Props.Xdg.package_found` | propext, Quot.sound |
| `Cskk.Props.Xdg.rules_found` | propext, Quot.sound |
| `Cskk.Props.Xdg.same_place` | propext, Quot.sound |
| `Cskk.Props.Years.refresh_stands` | propext, Classical.choice, Quot.sound |
| `Cskk.Props.Years.save_stands` | propext, Classical.choice, Quot.sound |
| `Cskk.Props.Years.spent_spends` | propext, Classical.choice, Quot.sound |
| `Cskk.Props.Years.turn_stands` | propext, Classical.choice, Quot.sound |
| `Cskk.Props.Years.years_seen` | propext, Classical.choice, Quot.sound |
| `Cskk.Props.Years.years_told` | propext, Classical.choice, Quot.sound |
