{"id": "C01", "title": "Key-release events are inert", "statement": "skk_context_process_key_event with an event whose modifiers contain RELEASE returns false and leaves preedit, pollable output, modes, candidate list and dictionaries exactly as they were.", "quantifier": "every context state reachable or not, every rule, every keysym, every modifier set containing RELEASE", "why_tests_cant": "the state space and the event space are unbounded; a test only samples a few states", "anchors": ["src/lib.rs:process_key_event", "src/keyevent.rs:SkkKeyModifier"]}
{"id": "C02", "title": "Modified keys without a command are handed back untouched; Shift makes no difference for letters", "statement": "An event with any modifier other than SHIFT for which the active rule has no command is reported as not consumed (false) and changes nothing at all. For the letters A to Z it makes no difference whether SHIFT is set. For any other key with SHIFT only commands which ask for SHIFT count, so that a sign that needs SHIFT on the keyboard never triggers a command the rule lists without it (the AZIK rule's { is such a key).", "quantifier": "every context state not in a stuck registration, every rule, every keysym, every modifier set with a non-SHIFT bit", "why_tests_cant": "would need every state x key x modifier combination", "anchors": ["src/lib.rs:process_key_event_inner_v2", "src/keyevent.rs:is_modifierless_input", "src/command_handler/configurable_command_handler.rs:get_instruction"]}
{"id": "C03", "title": "Polling delivers committed text exactly once", "statement": "skk_context_poll_output returns exactly the text committed on the outermost level and not yet delivered, and that text is a prefix of the outermost level's preedit before the poll; a following poll returns nothing, and skk_context_retrieve_output is a pure read; polling does not alter anything else of the preedit, modes, candidates or dictionaries. Exceptions proved as theorems: Backspace in Direct mode, Purge and reset erase text that was committed but not polled.", "quantifier": "every context state", "why_tests_cant": "exactly-once delivery is a statement about all interleavings of keys and polls", "anchors": ["src/lib.rs:poll_output", "src/lib.rs:retrieve_output", "src/cskkstate.rs:flush_confirmed_string"]}
{"id": "C04", "title": "Registration nesting is bounded and the preedit brackets balance", "statement": "After any sequence of API calls between 1 and 10 nested editing levels exist; every level but the current one is in Register mode, the preedit is the nesting of the levels' texts, each registration opening one bracket 【 closed by one 】 at the end, so that the brackets the library adds balance and number depth minus one.", "quantifier": "every finite history of key events and API calls, under every rule that never switches to Register mode by command and for callers that do not set Register mode themselves; brackets typed by the user as text are not counted", "why_tests_cant": "needs an inductive invariant over all histories; depth 10 is not reached by unit tests", "anchors": ["src/lib.rs:enter_register_mode", "src/lib.rs:exit_register_mode", "src/lib.rs:abort_register_mode", "src/lib.rs:get_preedit", "src/cskkstate.rs:preedit_string"]}
{"id": "C05", "title": "Reset returns to a usable state", "statement": "skk_context_reset discards nested registrations, pending input, candidates, committed text and the mode history, keeps input mode, composition mode and dictionaries. If that composition mode is the one the context was created with (Direct, normally), the context afterwards behaves like a new one for every following history of calls; in another mode (a reset while a reading is typed) it behaves like a new one that was put into that mode, so that giving up leads back to the mode of creation. Exception proved as a theorem: a context reset while its outermost level is registering stays in Register mode and ignores character keys for ever.", "quantifier": "every context state, every following key sequence", "why_tests_cant": "the failing case needs a reset in the middle of a registration followed by arbitrarily many keys", "anchors": ["src/lib.rs:skk_context_reset_rs", "src/lib.rs:reset_state_stack", "src/rule.rs:get_inner_ruleset"]}
{"id": "C06", "title": "The candidate cursor is always inside the candidate list", "statement": "Whenever candidates are offered the cursor position denotes one of them: every cursor operation and every list replacement keeps 0 <= cursor < count, and so does every history of API calls in which no word with the marker #4 is registered (the exception is proved as a theorem).", "quantifier": "every candidate list and sequence of list operations; every history of API calls of a context", "why_tests_cant": "off-by-one at both ends and on the empty list; needs all op sequences", "anchors": ["src/candidate_list.rs", "src/lib.rs:skk_context_select_candidate_at_rs", "src/lib.rs:exit_register_mode"]}
{"id": "C07", "title": "Offered candidates contain no duplicates and lose nothing", "statement": "The list offered for a reading without digits shows no word twice and shows exactly the words that some dictionary lists for the key (for the typed okurigana or the general group). For a reading with digits it shows exactly those words plus the fillings of the templates listed for the key with '#'; only in this case may two entries show the same text.", "quantifier": "every list of dictionaries, every composite key", "why_tests_cant": "arbitrary dictionaries with arbitrary overlap", "anchors": ["src/dictionary/mod.rs:get_all_candidates", "src/dictionary/mod.rs:dedup_candidates"]}
{"id": "C08", "title": "A confirmed word becomes the first candidate of the user dictionary", "statement": "After confirming a candidate, the user dictionary's entry for that key lists this candidate first, all other candidates of the entry are kept exactly once, and no other key changes.", "quantifier": "every user dictionary, key, candidate", "why_tests_cant": "must hold for entries of every length and every previous position of the word", "anchors": ["src/dictionary/user_dictionary.rs:select_candidate", "src/dictionary/dictentry.rs:prioritize_candidate"]}
{"id": "C09", "title": "A purged word is no longer offered by the user dictionary", "statement": "After purging a candidate, the user dictionary's entry for that key no longer lists it (for the okurigana typed, nor in the general group), other candidates of the entry keep their relative order, and no other key changes. Exceptions, proved as such: a file that lists the same word twice for one reading with different annotations keeps the second one, and the word stays listed for other okurigana.", "quantifier": "every user dictionary, key, candidate", "why_tests_cant": "arbitrary entries", "anchors": ["src/dictionary/user_dictionary.rs:purge_candidate", "src/dictionary/dictentry.rs:remove_matching_candidate"]}
{"id": "C10", "title": "Static dictionaries are never modified", "statement": "No sequence of API calls (confirm, purge, register, save) changes what a read-only dictionary answers.", "quantifier": "every history, every static dictionary", "why_tests_cant": "a history property", "anchors": ["src/dictionary/static_dict.rs", "src/dictionary/mod.rs:confirm_candidate", "src/dictionary/mod.rs:purge_candidate"]}
{"id": "C11", "title": "The dictionary container is a map with a sorted view and a recency view", "statement": "Any sequence of insert/lookup/remove on the dictionary container behaves like a finite map; the sorted view lists each key once in ascending order; the recency view lists each key once, most recently used first; no operation touches freed nodes. Any series of pulls from either end of a view reads only nodes in use and ends after one answer per entry. Exceptions proved: pulling the recency view from the back gives the entry a pull from the front would give, and pulling the sorted view from the back panics as long as it is not used up.", "quantifier": "every operation sequence, every series of pulls", "why_tests_cant": "raw-pointer linked list: aliasing bugs appear only for particular operation orders", "anchors": ["src/dictionary/lru_ordered_map.rs"]}
{"id": "C12", "title": "Saving then reloading the user dictionary preserves what lookups return", "statement": "If every entry of the user dictionary is representable in the file format (its words contain no bracket or line break, no two adjacent separators, do not look like an escaped word, and are encodable; okuri-ari readings end in a letter), writing it to disk and loading the file back yields, for each reading, each side and each okurigana, the same words with the same annotations in the same order. Words outside these conditions are lost or altered.", "quantifier": "every user dictionary whose entries are printable", "why_tests_cant": "round-trip over all dictionaries including escapes, annotations and strict-okuri blocks", "anchors": ["src/dictionary/user_dictionary.rs:save_dictionary", "src/dictionary/file_dictionary.rs:load_dictionary", "src/dictionary/dictentry.rs:Display", "src/dictionary/dictionary_parser.rs:entry"]}
{"id": "C13", "title": "Escaping of special characters round-trips", "statement": "A word containing '/' or ';' survives being written to the dictionary file and read back, provided it contains no backslash and no two adjacent separators; the escaped form never contains a separator, so it can never be cut in two.", "quantifier": "every string", "why_tests_cant": "the failing cases are particular adjacent character patterns", "anchors": ["src/dictionary/dictentry.rs:escape_dictionary_string", "src/dictionary/dictentry.rs:process_lisp_fun"]}
{"id": "C14", "title": "A crash while saving never loses the previously saved dictionary", "statement": "If the process dies at any point of one save, the complete previous contents are still on disk, in the dictionary file or its backup.", "quantifier": "every crash point, every old and new content, every partial write", "why_tests_cant": "crash points cannot be enumerated by unit tests", "anchors": ["src/dictionary/user_dictionary.rs:save_dictionary"]}
{"id": "C15", "title": "A malformed dictionary line affects only itself", "statement": "Loading a dictionary ignores each line that is not a well-formed entry and otherwise yields the same dictionary as the file without that line; loading never panics.", "quantifier": "every file content, as a list of lines", "why_tests_cant": "arbitrary garbage at arbitrary positions", "anchors": ["src/dictionary/file_dictionary.rs:load_dictionary", "src/dictionary/dictentry.rs:from_skkjisyo_line", "src/dictionary/dictionary_parser.rs"]}
{"id": "C16", "title": "Kanji numerals denote the number typed", "statement": "Numeric conversion #3 renders a number below 10^19 as a kanji numeral whose positional reading is exactly that number; larger numbers give the fixed error text.", "quantifier": "every natural number below 10^19 (all u64 values for the error branch)", "why_tests_cant": "10^19 inputs", "anchors": ["src/form_changer/numeric_form_changer.rs:numeric_to_simple_kanji", "src/form_changer/numeric_form_changer.rs:format_number_kuraidori_nashi_kanji"]}
{"id": "C17", "title": "Daiji numerals denote the number typed", "statement": "Numeric conversion #5 renders a number as formal (daiji) kanji whose reading is exactly that number.", "quantifier": "every natural number below 10^19", "why_tests_cant": "10^19 inputs", "anchors": ["src/form_changer/numeric_form_changer.rs:numeric_to_daiji"]}
{"id": "C18", "title": "Thousands separators are placed exactly every three digits", "statement": "Numeric conversion #8 inserts a comma before each group of three digits counted from the right, never at the ends, and removing the commas gives back the digits. With the digits of other scripts removing the commas gives back the digits too, but the groups are counted in bytes: full-width digits get a comma after every third digit from the left, even after the last.", "quantifier": "every string of decimal digits of any script", "why_tests_cant": "unbounded length", "anchors": ["src/form_changer/numeric_form_changer.rs:numeric_to_thousand_separator"]}
{"id": "C19", "title": "Digit-wise numeric conversions map each digit independently and reversibly", "statement": "Conversions #1 (full width) and #2 (kanji digits) replace each ASCII digit by its counterpart, keep length and order, and are reversible on digit strings.", "quantifier": "every digit string", "why_tests_cant": "unbounded length", "anchors": ["src/form_changer/numeric_form_changer.rs:numeric_to_zenkaku", "src/form_changer/numeric_form_changer.rs:numeric_to_kanji_each"]}
{"id": "C20", "title": "Readings with numbers are looked up with each number replaced by #", "statement": "The dictionary key for a reading is the reading with each maximal run of decimal digits, of whatever script, replaced by one '#', and the runs are remembered in order.", "quantifier": "every reading string", "why_tests_cant": "The runs can be of any number, length and place; readings are unbounded strings, and every character of Unicode is either a digit or not.", "anchors": ["src/dictionary/mod.rs:to_composite_to_numeric_dict_key"]}
{"id": "C21", "title": "Numeric templates are filled with the typed numbers in order", "statement": "A dictionary word whose '#' all belong to markers #0-#5, #8 is offered with the k-th marker replaced by the conversion of the k-th typed number, in all combinations; markers or numbers left over are kept as they are. A stray '#' can capture a digit of an inserted number.", "quantifier": "every template and number list", "why_tests_cant": "unbounded", "anchors": ["src/dictionary/mod.rs:replace_numeric_string", "src/dictionary/mod.rs:replace_numeric_match"]}
{"id": "C22", "title": "Arbitrarily large numbers can be converted without crashing", "statement": "Converting a reading that contains ASCII numbers below 2^64 never panics, for any marker; for every number of 2^64 or more the conversions #3 and #5 panic.", "quantifier": "every digit string", "why_tests_cant": "needs 20 or more digits, or non-ASCII digits", "anchors": ["src/form_changer/numeric_form_changer.rs:numeric_to_simple_kanji"]}
{"id": "C23", "title": "Form conversion of ASCII is length preserving and per character", "statement": "Changing ASCII text to full width maps each character independently, keeps non-ASCII characters and order, and converting to half width is the identity on the text. With the shipped table the full-width form of every character is the one 0xFEE0 code points further for the characters from `!` to `~`, but for six characters (space, both quotes, minus, tilde, and the backquote, which is kept).", "quantifier": "every string, every input mode", "why_tests_cant": "unbounded strings", "anchors": ["src/form_changer/ascii_form_changer.rs"]}
{"id": "C24", "title": "Kana form conversion is a greedy longest-match rewriting", "statement": "Converting hiragana to katakana or half-width katakana rewrites the text left to right, at each place replacing the longest known kana sequence and keeping unknown characters; hiragana mode is the identity. With the shipped table the result is known for every text: katakana are the hiragana 96 code points further (and `う゛` becomes `ヴ`), half-width katakana are those of Unicode, voice marks becoming characters of their own.", "quantifier": "every string, every conversion table", "why_tests_cant": "unbounded strings and tables", "anchors": ["src/form_changer/kana_form_changer.rs:adjust_kana_string"]}
{"id": "C25", "title": "Romaji conversion follows the rule table and only it", "statement": "A key sequence is converted exactly when it is an entry of the rule that cannot be extended, is kept pending exactly when it is a proper prefix of some entry, and a converted result together with its carry-over is the table's value.", "quantifier": "every rule table, every key sequence", "why_tests_cant": "all tables and sequences", "anchors": ["src/kana_builder.rs"]}
{"id": "C26", "title": "Key events from fcitx are normalised deterministically", "statement": "A key event built from raw fcitx keysym and state keeps exactly the known modifier bits and maps ISO_Left_Tab to Tab, everything else unchanged.", "quantifier": "every 32-bit keysym and state", "why_tests_cant": "2^64 combinations", "anchors": ["src/keyevent.rs:from_fcitx_keyevent", "src/keyevent.rs:SkkKeyModifier"]}
{"id": "C27", "title": "Key sequence strings parse token by token", "statement": "A key sequence string is parsed as the list of its space-separated or parenthesised tokens, and parsing terminates on every string.", "quantifier": "every string", "why_tests_cant": "unbounded strings", "anchors": ["src/keyevent.rs:deserialize_seq", "src/keyevent.rs:next_tok"]}
{"id": "C28", "title": "Completion lists exactly the entries with the typed prefix", "statement": "Completing a reading yields from each dictionary every okuri-nashi entry whose reading starts with it, in ascending order of readings, and nothing else; over all dictionaries enabled for completion every word of these entries is offered, at most once per word.", "quantifier": "every dictionary, every prefix", "why_tests_cant": "arbitrary key sets; relies on contiguity of prefixes in the sorted order", "anchors": ["src/dictionary/file_dictionary.rs:complete", "src/dictionary/mod.rs:get_all_complete"]}
{"id": "C29", "title": "Okuri-ari and okuri-nashi words never mix", "statement": "Lookup with an okurigana consults only okuri-ari entries under reading plus okuri letter, lookup without consults only okuri-nashi entries.", "quantifier": "every dictionary and key", "why_tests_cant": "all dictionaries", "anchors": ["src/dictionary/mod.rs:get_candidates_in_order", "src/dictionary/composite_key.rs", "src/dictionary/dictentry.rs"]}
{"id": "C30", "title": "A registered word is offered for its reading afterwards", "statement": "After a word is registered for a reading without okurigana, the text committed by the registration is offered when the same reading is converted with the dictionaries as they are then (for number templates: the filled-in text). Exceptions proved as theorems: with okurigana, or with a punctuation mark that started the conversion, the conversion offers exactly what it offered before, so the word is never found.", "quantifier": "every context in registration with a user dictionary, every reading and word", "why_tests_cant": "quantifies over all dictionaries and readings, with and without okurigana", "anchors": ["src/lib.rs:exit_register_mode"]}
{"id": "C31", "title": "The mode history is bounded and abort returns to the previous mode", "statement": "The number of remembered modes never exceeds 20, and aborting returns to the mode that was active before the last mode change, or to the default mode if none is remembered.", "quantifier": "every history", "why_tests_cant": "needs more than 20 mode changes", "anchors": ["src/cskkstate.rs:change_composition_mode", "src/cskkstate.rs:abort_to_previous_mode"]}
{"id": "C32", "title": "will_process predicts process_key_event", "statement": "skk_context_will_process has no effect; it answers true whenever a command is bound to the key; for character keys it agrees with what process_key_event reports in all modes without romaji conversion, and in romaji modes they differ exactly for the keys listed by an explicit condition on the table (proved), in particular it never announces a key that is then handed back outside those modes. After every history covered by the machine of C75, for every key it covers: the announcement and the answer differ exactly when a printable character is not announced (it is taken nevertheless: capital letters, digits, spaces and symbols that begin no kana), or when Enter, BackSpace, Ctrl-m, Ctrl-h or Ctrl-H is announced and there is nothing to register or to erase (it is handed back).", "quantifier": "every state and key event", "why_tests_cant": "all states x keys", "anchors": ["src/lib.rs:will_process", "src/lib.rs:process_key_event"]}
{"id": "C33", "title": "The C candidate window copies exactly the requested slice", "statement": "skk_context_get_current_candidates fills at most buf_size slots, exactly min(buf_size, count - offset) of them, with the candidates from offset on, in order; an interior NUL gives an error, never an overrun.", "quantifier": "every candidate list, buffer size and offset", "why_tests_cant": "all sizes and offsets", "anchors": ["src/capi.rs:skk_context_get_current_candidates"]}
{"id": "C34", "title": "The detailed preedit spells the same text as the plain preedit", "statement": "Concatenating the parts of skk_context_get_preedit_detail with their markers yields skk_context_get_preedit.", "quantifier": "every context state", "why_tests_cant": "all states", "anchors": ["src/cskkstate.rs:preedit_string", "src/cskkstate.rs:preedit_detail", "src/lib.rs:get_preedit", "src/lib.rs:get_preedit_detail"]}
{"id": "C35", "title": "Candidate merge order follows the dictionary order", "statement": "Candidates of an earlier dictionary come before those of a later one unless the same word appears in both; with okurigana, words registered for exactly this okurigana precede the others of the same dictionary.", "quantifier": "every list of dictionaries and key", "why_tests_cant": "all dictionaries", "anchors": ["src/dictionary/mod.rs:get_candidates_in_order", "src/dictionary/mod.rs:get_all_candidates_inner", "src/dictionary/mod.rs:dedup_candidates"]}
{"id": "C36", "title": "In ASCII direct mode the typed text is committed verbatim", "statement": "In Ascii (or Zenkaku) input mode with nothing pending, typing printable keys without commands commits exactly the typed characters (or their full-width forms) in order.", "quantifier": "every text of printable characters, every context with empty command table for those keys", "why_tests_cant": "every text", "anchors": ["src/lib.rs:process_key_event_inner_v2", "src/form_changer/ascii_form_changer.rs"]}
{"id": "C37", "title": "The reading shown is the reading looked up", "statement": "While composing, the reading shown after the ▽ mark is the one the conversion looks up, in every history in which BackSpace is not pressed where okurigana are shown and no key is pending (and, with rules of one's own, without the ClearKanaConvertedInputs instruction, which the shipped rules do not use). In every history whatsoever with the shipped rules the reading looked up is the one shown with characters left out: nothing is ever looked up which is not shown. Exceptions proved as theorems: deleting okurigana with BackSpace leaves a reading that is looked up differently from the one shown, and a word can so be registered for an empty reading.", "quantifier": "every history of API calls, from a new context with any rule (shipped rules for the unconditional part), kana table, mode and dictionaries", "why_tests_cant": "The two readings are kept in two fields which many operations change; that they agree, or that the one stays within the other, has to hold after every sequence of calls.", "anchors": ["src/cskkstate.rs:delete", "src/cskkstate.rs:push_string_for_composition_mode", "src/cskkstate.rs:get_composite_key"]}
{"id": "C38", "title": "Backspace deletes exactly one unit or is handed back", "statement": "A Delete command removes exactly the last pending key, else the last okurigana, reading or committed character, depending on the mode, and reports that it did; with nothing to delete it reports unconsumed and changes nothing, except that a bare ▽ or * mark is left by going back to the previous mode.", "quantifier": "every state", "why_tests_cant": "all states", "anchors": ["src/cskkstate.rs:delete", "src/lib.rs:process_instructions"]}
{"id": "C39", "title": "Saving is skipped when nothing changed and recorded when it succeeded", "statement": "skk_context_save_dictionary writes a user dictionary only if a confirm or purge changed it since the last successful save, and after a successful save it is clean.", "quantifier": "every history of confirm/purge/save/reload with arbitrary I/O failures", "why_tests_cant": "all histories and failure points", "anchors": ["src/dictionary/user_dictionary.rs"]}
{"id": "C40", "title": "Confirming commits the shown conversion", "statement": "Confirming the current candidate in selection, completion or Direct mode appends to the output of the level exactly the candidate's output followed by the okurigana in the current kana form, which is what the preedit showed, and leaves composition; an index out of range changes nothing. Exception proved as a theorem: confirm_candidate_at in ▽ mode with a leftover list loses the word.", "quantifier": "every state with a current candidate", "why_tests_cant": "all states", "anchors": ["src/lib.rs:confirm_current_composition_candidate"]}
{"id": "C41", "title": "The last line for a reading counts", "statement": "When a dictionary file has several lines for the same reading in the same section, the loaded dictionary answers with the words of the last of these lines only.", "quantifier": "all files (sequences of lines), all positions of the repeated reading", "why_tests_cant": "ranges over arbitrary files and line orders", "anchors": ["src/dictionary/file_dictionary.rs:load_dictionary", "src/dictionary/lru_ordered_map.rs:push"]}
{"id": "C42", "title": "Strings and preedit details handed to C are exact copies and are given back completely", "statement": "skk_context_get_preedit_detail describes level by level exactly what the Rust API describes, poll_output, get_preedit and get_current_to_composite return the exact text or NULL (iff it contains a NUL character), and freeing a result with the matching free function releases each of its strings exactly once and nothing else. Exceptions proved as theorems: for a level in completion the heading string is never released (leak), and text polled over C that contains a NUL is lost.", "quantifier": "every context state, every heap of strings handed out before", "why_tests_cant": "memory errors show only for particular combinations of modes, levels and texts; a leak has no functional effect a test sees", "anchors": ["src/capi.rs: skk_context_get_preedit_detail", "src/capi.rs: convert_state_info", "src/capi.rs: CompleteDataFfi drop", "src/capi.rs: skk_free_preedit_detail", "src/capi.rs: skk_free_string"]}
{"id": "C43", "title": "Next and previous walk through the candidates one by one", "statement": "While choosing, the key for the next candidate moves the selection by exactly one and changes nothing else; on the last candidate it starts the registration of a new word (unless ten registrations are open). The key for the previous candidate moves it back by exactly one, undoing next; on the first candidate the conversion is given up, the reading (with its okurigana) comes back and the list is empty. skk_context_select_candidate_at and the corresponding Rust call put the selection on exactly the asked candidate, and on the last one if the index is too large; a negative index or no list is refused with no change. Completion moves likewise, without leaving the list at its ends.", "quantifier": "every context in which a candidate is selected, every key of every rule bound to these commands, every index", "why_tests_cant": "tests press space two or three times on lists of a few candidates; the ends of the list, repetition counts and nested registration levels are unbounded", "anchors": ["src/lib.rs: try_next_candidate, try_previous_candidate, select_candidate_at", "src/candidate_list.rs: forward_candidate, backward_candidate, has_next, has_previous", "src/cskkstate.rs: forward_candidate, backward_candidate"]}
{"id": "C44", "title": "Conversion offers exactly what the dictionaries have for the reading", "statement": "Pressing the conversion key on a reading first turns a pending complete romaji (such as a final n) into kana, then looks up exactly that reading with its okurigana consonant, and offers exactly the words of the dictionaries in their order with the first one selected and shown after the ▼ mark. With no word it begins a registration (or, with an empty reading, does nothing). Completion does the same with the words whose reading starts with the typed text, and stays as it is if there are none.", "quantifier": "every context that is composing, every kana table, every list of dictionaries and their contents, every key bound to the command", "why_tests_cant": "depends on every combination of pending romaji, okurigana, dictionary contents and nesting level", "anchors": ["src/lib.rs: try_next_candidate, try_next_completion, update_candidate_list, update_completion_list, output_converted_kana_if_any", "src/cskkstate.rs: get_composite_key, set_new_candidates"]}
{"id": "C45", "title": "Typing romaji writes the kana it spells", "statement": "Typing a text in a kana mode writes exactly what a simple transducer on the rule's table writes: a sequence completes as soon as no entry is longer, an entry such as n is written when a key follows with which no entry goes on, full stop and comma become the configured punctuation, keys in no entry are written as they are, and what only begins an entry stays pending. In particular a text that is cut into entries of the table (with carry-over, as kk in kekkon) commits exactly their kana in the form of the input mode, or while composing appends exactly these kana to the reading. Nothing else changes. Exception proved as a theorem: pending keys are lost (kan- gives かー) if the next key is kana by itself.", "quantifier": "every rule table, every text of printable non-capital keys that are not commands, every context in a kana mode, of any length", "why_tests_cant": "all texts and all tables; the interaction of pending keys, commands, punctuation and carry-over has no finite test set", "anchors": ["src/lib.rs: process_key_event_inner_v2, input_converted_kana, input_as_continuous_kana, output_converted_kana_if_any", "src/kana_builder.rs", "src/cskkstate.rs: push_string"]}
{"id": "C46", "title": "Capital letters mark a word and its okurigana, and the word so typed is what is converted", "statement": "A capital letter typed in direct input opens a reading and types like the small letter in it; a second capital letter begins the okurigana; as soon as the okurigana's kana are complete the word is looked up with exactly the kana typed and that okurigana and the result is offered (or its registration begins). Typing a word and the conversion key offers exactly the dictionaries' words for the kana it spells. A reading that comes to end with a configured keyword such as 。 is converted without it and the keyword follows the word.", "quantifier": "every rule table, every word and okurigana of any length, every dictionary content, every nesting level", "why_tests_cant": "all words, tables and dictionaries; tests fix a handful of words", "anchors": ["src/lib.rs: transition_composition_mode_by_capital_letter, input_converted_kana, auto_start_henkan, try_next_candidate, process_key_event_inner_v2", "src/cskkstate.rs: change_composition_mode, get_composite_key"]}
{"id": "C47", "title": "A key description denotes the key and modifiers it names", "statement": "A parenthesised description denotes the key named by its last word that is no modifier, with exactly the modifiers its words name, in any order; C-, M-, A- and G- before a name add exactly CONTROL, META, ALT and MOD5; any other ASCII text is a key name without modifiers; a name unknown to xkb denotes no event. The key lists of a rule are those of its words in order, a word that is no key name being spelled out character by character.", "quantifier": "every list of words, every key name, every naming function of xkb", "why_tests_cant": "unbounded texts and an external naming function", "anchors": ["src/keyevent.rs:from_str", "src/keyevent.rs:keysyms_from_str"]}
{"id": "C48", "title": "A romaji table is loaded as written, in whatever order its entries arrive", "statement": "The keys of an entry of the rule file give exactly the kana and the carry-over the file says, at once iff no other entry goes on from them, and the iteration order of the hash map the entries come from makes no difference for any conversion. Exception proved as a theorem: two key texts denoting the same keys (ka and k a) are resolved by the hash order.", "quantifier": "every rule table without two texts for the same keys, every permutation of it, every key sequence", "why_tests_cant": "all tables and all hash orders", "anchors": ["src/kana_builder.rs:converter_from_hashmap", "src/rule.rs"]}
{"id": "C49", "title": "No call crashes a release build while numbers are short", "statement": "In a release build no sequence of calls (keys, polling, resets, mode and candidate selection, settings, rule and dictionary changes) panics, whatever rule, dictionaries, modes and nesting, as long as no reading collects more than 19 digits and neither the romaji table nor the auto-start keywords contain digits. Proved as theorems as well: the twentieth digit crashes when a #3 word exists, and a debug build crashes on space, x, C-g, space after typing a word.", "quantifier": "every command rule, romaji table and keyword list without digits, every dictionary content, every history of calls of any length with at most 19 digit keys, every context whose readings have few digits", "why_tests_cant": "all histories; panics hide in rare combinations of modes (the debug crash needs cancel after going back)", "anchors": ["src/lib.rs: process_key_event", "src/candidate_list.rs", "src/dictionary/mod.rs: replace_numeric_string", "src/form_changer/numeric_form_changer.rs"]}
{"id": "C50", "title": "Contexts sharing dictionaries do not disturb each other", "statement": "When several contexts use dictionaries in common: a context sharing no writable dictionary behaves as if it were alone; a call on one context never changes what the others show, their candidates, modes, output or settings; every dictionary is changed by the edits of all contexts using it in call order and nothing is overwritten; shared read-only dictionaries never change; a word confirmed in one context is the first one offered in the others. Proved as well: candidate lists on display are not refreshed, so confirming there a word purged elsewhere restores it.", "quantifier": "any number of contexts and dictionaries, every assignment of dictionaries, every interleaving of calls of any length", "why_tests_cant": "all interleavings of all histories of several contexts", "anchors": ["src/lib.rs: CskkContext::dictionaries", "src/dictionary/mod.rs: confirm_candidate, purge_candidate", "src/capi.rs: skk_context_new, skk_context_set_dictionaries"]}
{"id": "C51", "title": "The list of rules is handed out and released correctly", "statement": "skk_get_rules returns an array with identifier, name and description of every rule in order and writes their number; on error it returns NULL, leaks nothing and writes no length. skk_free_rules releases exactly the strings of the list; but the array is released with the size it was allocated with iff the number of rules is a power of two of at least four, so with the two shipped rules the documented pair of calls is undefined behaviour, as is freeing NULL.", "quantifier": "every list of rules (any texts, with or without NULs), every state of the heap, every number of rules", "why_tests_cant": "undefined behaviour of the allocator is silent in tests; all list lengths", "anchors": ["src/capi.rs: skk_get_rules, skk_free_rules, CskkRulesFfi"]}
{"id": "C52", "title": "Rules are found where documented, switching rules is all or nothing, and a context can always be made", "statement": "A data file is taken from the first of the user's data directory and the system data directories which has it, and not found iff none has it. Switching rules succeeds iff the metadata list the identifier and its file loads, and then changes only the rule; a failed switch changes nothing. Once the files of character forms have been read (C90) the fallback constructor always gives a context; without rules it still types every printable ASCII text. Exception proved: an empty XDG_DATA_HOME hides ~/.local/share.", "quantifier": "every file system, environment, list of directories, identifier, context and text", "why_tests_cant": "all environments and file systems; tests run in one", "anchors": ["src/env.rs: filepath_from_xdg_data_dir", "src/rule.rs: load_rule", "src/lib.rs: set_rule, new, new_with_empty_fallback"]}
{"id": "C53", "title": "Contexts in different threads may share dictionaries", "statement": "Contexts running in different threads and sharing dictionaries never deadlock, every execution ends, no change to a dictionary is lost or made twice, every read of a dictionary sees exactly the changes made before it in one common order, a thread whose dictionaries nobody else changes gets the results it gets when alone, and a panic of one thread outside the dictionary locks (the only panics a lookup with a proper key has) does not hinder the others. Limits proved: a lookup over several dictionaries is not atomic (a word being confirmed may be seen in the second dictionary and not in the first), and a panic under a lock would make the dictionary unusable for everybody.", "quantifier": "any number of threads, every program that uses dictionaries through the library's lookup, completion, confirm and purge functions (adaptively), every schedule of any length, every dictionary content", "why_tests_cant": "all schedules; races and deadlocks show up rarely in tests", "anchors": ["src/dictionary/mod.rs: CskkDictionary::mutex, get_candidates_in_order, get_all_complete_inner, confirm_candidate, purge_candidate, replace_numeric_string"]}
{"id": "C54", "title": "UTF-8 dictionaries: lossless, line breaks safe, damage confined to its line", "statement": "With the encoding utf-8, every text, however long, is encoded and decoded back unchanged (so every word can be saved and read again); a line break byte is decoded as a line break whatever bytes stand around it, and no other bytes decode to one, so lines decode independently; bytes between two line breaks that form no entry have no effect on the other entries; a file cut off at any byte still gives all its complete lines, plus at most one line for the one that was cut; a dirty UTF-8 user dictionary that is saved and opened again has the same words.", "quantifier": "all texts over all Unicode scalar values; all byte sequences, including malformed ones; all cut positions; all dictionaries whose entries can be written", "why_tests_cant": "There are infinitely many texts and byte sequences; the damage cases arise from crashes and foreign editors at arbitrary byte positions.", "anchors": ["src/dictionary/file_dictionary.rs: load_dictionary", "src/dictionary/user_dictionary.rs: encode_string, save_dictionary"]}
{"id": "C55", "title": "Dictionaries, contexts and key events can be released in any order, exactly once, without leaks", "statement": "A C program that uses only pointers it was given and has not given back never makes the library use or release memory that is not in use, whatever it did before; a dictionary lives exactly as long as there is a handle or a context that uses it, in whatever order handles and contexts are released (so handles may be released right after the context was made, and several contexts may share a dictionary); when everything is given back nothing is left in memory; constructors return NULL exactly when they fail; NULL may be released; a NULL at the start of an array of dictionaries makes the context use none of them.", "quantifier": "all sequences of calls of skk_*_dict_new, skk_context_new(_with_empty_fallback), skk_context_set_dictionaries, skk_free_dictionary, skk_free_context, key event creation and processing that obey the rules for callers", "why_tests_cant": "Reference counts depend on the whole history of calls; orders of release and sharing patterns are unbounded, and use after free is often invisible in a test.", "anchors": ["src/capi.rs: CskkDictionaryFfi, skk_context_new, skk_context_new_with_empty_fallback, skk_file_dict_new, skk_user_dict_new, skk_empty_dict_new, skk_context_set_dictionaries, skk_free_context, skk_free_dictionary, skk_key_event_new_from_fcitx_keyevent, skk_context_process_key_event, dictionaries_from_c_repr", "src/lib.rs: CskkContext::new, new_with_empty_fallback, set_dictionaries"]}
{"id": "C56", "title": "Learned words survive saves, failed saves and restarts over the whole life of a user dictionary", "statement": "Starting from an empty (or any plain) UTF-8 user dictionary file, after any history of confirmations, purges, saves that succeed or fail at any point, reloads and restarts while nothing is unsaved, the words of the dictionary are exactly the result of the edits in their order. A failed save reports an error, changes nothing in memory and keeps the dictionary unsaved, so a later save writes everything; whenever nothing is unsaved the file holds all words; after a first failed write the backup holds the previously saved words. Exact limits: a file that has disappeared (deleted, or because creating the new file failed) is never written again, and two failed writes in a row destroy file and backup.", "quantifier": "all histories of edits, saves with every outcome of the operating system, reloads and restarts, of any length; all candidates that the file format can carry", "why_tests_cant": "Histories are unbounded and a save can fail at any byte; tests see one save of one dictionary.", "anchors": ["src/dictionary/user_dictionary.rs: UserDictionary::new, save_dictionary, select_candidate, purge_candidate", "src/dictionary/file_dictionary.rs: load_dictionary, reload", "src/dictionary/dictentry.rs: DictEntry::from_skkjisyo_line, Display, prioritize_candidate, remove_matching_candidate"]}
{"id": "C57", "title": "What a context does depends only on the words of its dictionaries; restarts are invisible to typing", "statement": "Two contexts which are equal except that their dictionaries, one by one, are of the same kind and list the same words in the same order for every reading and okurigana behave alike in every sequence of calls: the same keys are reported as processed, the same text is delivered, preedit, candidates, cursor and modes are equal, and panics occur in both or in neither. Order of use, entries without words and unsaved changes make no difference. So a user dictionary which was saved and opened again behaves, whatever is typed, as if the program had not been restarted.", "quantifier": "all contexts, rules and configurations; all lists of well-formed dictionaries; all sequences of calls of any length", "why_tests_cant": "It compares two runs over all histories; dependence on the internal order of a map shows up only for particular layouts and key sequences.", "anchors": ["src/lib.rs: CskkContext::process_key_event, update_candidate_list, update_completion_list, confirm_current_composition_candidate, purge_current_composition_candidate, exit_register_mode", "src/dictionary/mod.rs: get_all_candidates, get_all_complete, confirm_candidate, purge_candidate", "src/dictionary/file_dictionary.rs: complete", "src/dictionary/user_dictionary.rs: lookup, save_dictionary"]}
{"id": "C58", "title": "Mode keys commit what is pending, switch the mode, and change nothing else", "statement": "In direct kana input the keys for changing the input mode commit the kana of the pending romaji (such as a final n) in the current form, switch to the documented mode, and change nothing else: with the default rule l leads to ASCII, L to full width, q to katakana and back, Ctrl-q to half-width katakana and back, and Ctrl-j from ASCII or full width to hiragana. While a reading is typed, q commits it as katakana (hiragana if the mode is not hiragana), Ctrl-j in the form of the mode, Ctrl-q in half width; an abbreviation is committed as it is or in full width. A key which completes a romaji sequence (zl) is not a command. Exceptions of the shipped rules are stated and witnessed (Ctrl-q drops pending keys, okurigana is dropped on q and Ctrl-j, Q and / keep keys pending).", "quantifier": "all contexts in the modes concerned, any registration depth, dictionaries, committed text and pending keys; any rule that binds a key to these instructions", "why_tests_cant": "The effect must be right for every pending state, form and level; the existing tests try single words.", "anchors": ["src/lib.rs: process_key_event_inner_v2, process_instructions, output_converted_kana_if_any, confirm_current_kana_to_composite, set_input_mode", "assets/rules/default/rule.toml", "assets/rules/azik/rule.toml", "src/cskkstate.rs: clear_unconfirmed, change_composition_mode"]}
{"id": "C59", "title": "A registration leaves everything outside it alone, can be given up without a trace, and ends in the registered word", "statement": "While the user types inside a dictionary registration (any keys, mode changes and candidate calls, including nested registrations begun and ended inside it) the levels which wait for it keep their reading, committed text, candidates and modes. The cancel key (C-g in the shipped rules) at the registration's own level restores the context as it was before the registration began, except for what the dictionaries learned meanwhile; ending it with an empty word does the same; ending it with a word commits that word (its number markers filled in) on the level which asked, and the reading offers it from then on. Outside a registration the key which would end one is handed back and changes nothing.", "quantifier": "all contexts, registration depths, rules in which Abort ends its command (both shipped rules), all finite sequences of calls inside the registration, all typed words", "why_tests_cant": "All key sequences inside a registration, at all nesting depths; the tests type one word.", "anchors": ["src/lib.rs: enter_register_mode, abort_register_mode, exit_register_mode, process_instructions (Abort, ConfirmDirect)", "src/cskkstate.rs: abort_to_previous_mode, change_composition_mode_from_old_mode", "assets/rules/default/rule.toml", "assets/rules/azik/rule.toml"]}
{"id": "C60", "title": "A rule file means what it says", "statement": "A rule file is accepted exactly when it has a conversion table and every line of every command table which is used names a key and lists known instructions. Then, in each composition mode and input mode, the commands in effect are exactly those listed in the table of that section and input mode: the last line for a key counts, the instructions are those spelled, in that order. Every documented spelling of an instruction is understood as that instruction, and a text is understood as an instruction only if it is one of the documented spellings, one of the older ones, or a name(mode) on a line of its own with possibly more text around it. The shipped rule files, read this way, give the commands and conversions of the other properties.", "quantifier": "all parsed rule files (any sections, tables, lines and texts), all texts of instructions, all keyboards (xkb name tables), all contexts using the rule", "why_tests_cant": "All instruction texts (the reader uses an unanchored regular expression) and all rule files; the tests read a few spellings and the shipped files.", "anchors": ["src/rule.rs: CskkRule, CskkCommandRule, CskkCommandRuleInner, load_rule_file", "src/command_handler/instruction.rs: Instruction::from_str", "src/skk_modes.rs: InputMode, CompositionMode", "assets/rules/default/rule.toml", "assets/rules/azik/rule.toml"]}
{"id": "C61", "title": "A line of an SKK dictionary is read as the format says", "statement": "A dictionary line in the documented format (reading, one or more blanks, then between slashes words with or without ;annotation and groups [okurigana/word/.../], in any order, repeated groups allowed) is always read, and for each okurigana, and without one, the words found are exactly those listed, in their order. A line without brackets is read if and only if it spells words in this format, up to two tolerated variations (two slashes in a row from which on words are preceded by the slash; a missing first slash made up by one more at the end), and then its words are exactly those. A semicolon inside an annotation makes the whole line disappear. A file is read line by line with Unix or Windows line ends; a last line without line break counts like any other.", "quantifier": "all readings, numbers of blanks, items (any words, annotations, groups, in any order and number); all texts without brackets after the reading", "why_tests_cant": "The parser is built from order-free (permutation) combinators with backtracking, its language is not the documented one; the tests parse a handful of lines.", "anchors": ["src/dictionary/dictionary_parser.rs: entry, candidates, candidate, strict_okuri_candidates, no_strict_okuri_candidate", "src/dictionary/dictentry.rs: from_skkjisyo_line, from_dict_entry_prototype, process_lisp_fun"]}
{"id": "C62", "title": "Convert, choose, and confirm or purge: the whole cycle", "statement": "With a reading typed in a kana mode under the shipped rules, pressing space n+1 times and Ctrl-j commits candidate n of the list the dictionaries give for that reading, followed by the okurigana as typed, appends it to the text not polled yet, and tells exactly this candidate to every user dictionary; pressing X instead purges exactly this candidate, under the key of that reading, from every user dictionary and leaves an empty level in direct mode. From then on the same reading offers the confirmed word first (when the user dictionary comes first and annotations do not interfere) and the same words otherwise; after a purge it offers exactly the old list without the purged word, unless a read-only dictionary has it. Exceptions proved: X also erases text that was committed and not polled; Ctrl-g directly after a purge shows the internal error text ▼エラー in an empty selection.", "quantifier": "all contexts with a reading typed, all dictionaries, all candidate lists and positions n, all levels of registration below, both shipped rules, both build profiles", "why_tests_cant": "The effect on later lookups depends on all dictionaries and their merged order, and on which key the list remembers; tests check one word of one dictionary.", "anchors": ["src/lib.rs: process_key_events, try_next_candidate, confirm_current_composition_candidate, purge_current_composition_candidate, abort", "src/dictionary/mod.rs: get_all_candidates, dedup_candidates", "src/dictionary/user_dictionary.rs: select_candidate, purge_candidate", "assets/rules/default/command"]}
{"id": "C63", "title": "Typing on while a candidate is shown confirms it", "statement": "While a conversion (▼) or completion (■) is shown and no keys are pending, a printable key without modifiers that is no command there does exactly what confirming the shown candidate and then typing that key does: the candidate and its okurigana are committed, every dictionary learns it, and the key starts new input (a capital letter a new word). A text typed on is committed, as the kana it spells, directly after the candidate. Backspace confirms and deletes the last committed character. Exceptions proved: with the default rule l, /, L and Q are not commands while a candidate is shown and are committed as characters instead of switching the mode; consonants pending when the conversion was started stay pending, invisibly, and combine with the next key.", "quantifier": "all contexts showing a candidate, all candidate lists and positions, all keys, all texts, all dictionaries and romaji tables (and in particular both shipped rules), all levels of registration below", "why_tests_cant": "The equality of two key sequences holds over all contexts, tables and keys; tests type a few words.", "anchors": ["src/lib.rs: process_key_event_inner_v2 (implicit confirmation), confirm_current_composition_candidate, will_be_processed", "src/skk_modes.rs: has_rom2kana_conversion", "assets/rules/*/rule.toml"]}
{"id": "C64", "title": "Complete, choose, and confirm or cancel: the whole cycle", "statement": "With a reading or abbreviation typed under the default rule, Tab n+1 times shows entry n of the completions of the reading, stopping at the last one; Return or Ctrl-j then commits exactly that word and tells it to every user dictionary under its own whole reading (of which the typed reading is a prefix), so that it is offered first when that reading is converted later; Escape or Ctrl-g gives back the reading with nothing committed or learned. Without completions Tab does nothing but turn pending keys into kana. Exception proved: the AZIK rule has no key that starts a completion.", "quantifier": "all contexts with a reading typed, all dictionaries, all completion lists and positions n, any number of Tabs, both build profiles", "why_tests_cant": "Completion lists are unbounded and the learned entry concerns a reading that was never typed; tests press Tab once or twice.", "anchors": ["src/lib.rs: try_next_completion, process_instructions, confirm_current_composition_candidate, abort", "src/dictionary/mod.rs: get_all_complete", "assets/rules/default/rule.toml", "assets/rules/azik/rule.toml"]}
{"id": "C65", "title": "A context, its dictionaries and their files over a whole session", "statement": "A program opens any list of static, user and empty dictionaries and uses a context with them: keys and API calls, saves of all dictionaries and reloads in any order, with disks that refuse to rename or stop while writing. At every moment each read-only dictionary is what its file says, each user dictionary has a file, and each user dictionary without unsaved changes is what its file holds. Saving treats every dictionary as if it were alone, and no file is touched except those of the user dictionaries and their backups. After a final save that completes there are no unsaved changes, and a new program which opens the same files delivers exactly the text the old one would have delivered had it gone on, whatever is typed. Conditions and exceptions proved: the files and backups of the user dictionaries differ (two user dictionaries on one file: the last save wins; a dictionary whose file is another's backup is overwritten), and a file that could not be created again after being moved to its backup is never saved any more, although the disk works again.", "quantifier": "all lists of dictionaries, all initial files, all histories of calls, saves (with every answer of the operating system for every dictionary) and reloads, all texts typed after the restart", "why_tests_cant": "Histories, failures and the number of dictionaries are unbounded, and what matters is the text typed after the restart, compared with a program that was not restarted.", "anchors": ["src/lib.rs: save_dictionary, reload_dictionary", "src/dictionary/mod.rs: new_static_dict, new_user_dict, new_empty_dict, save_dictionary", "src/dictionary/user_dictionary.rs: save_dictionary", "src/dictionary/file_dictionary.rs: reload, load_dictionary"]}
{"id": "C66", "title": "The encoding a dictionary is opened with", "statement": "With the label of an encoding that decodes what it encodes, loading and saving a dictionary do what the other properties say and a save never panics. A UTF-8 file is read correctly with any unknown label. Exceptions proved: (1) an unknown label is no error on opening — lines that are not UTF-8 are silently dropped, so that an EUC-JP file opened as 'euc-jis-2004' is an empty dictionary; (2) the first save of a changed user dictionary with an unknown label panics after the file was emptied, every later use of the dictionary panics, and after two such sessions the file and its backup are both empty, whatever they held; (3) a user dictionary in UTF-16, opened as UTF-16, is read correctly, but it is saved as UTF-8 without an error and is empty when it is opened again, whatever it held.", "quantifier": "all labels, all tables of labels, all file contents and dictionaries, all words confirmed", "why_tests_cant": "Labels are arbitrary strings and the loss appears only in the second session; tests use utf-8 and euc-jp.", "anchors": ["src/dictionary/file_dictionary.rs: load_dictionary", "src/dictionary/user_dictionary.rs: save_dictionary, encode_string, new", "src/lib.rs: save_dictionary", "src/capi.rs: skk_user_dict_new, skk_file_dict_new"]}
{"id": "C67", "title": "Dictionaries in EUC-JP", "statement": "For a user dictionary in EUC-JP a save succeeds and, after opening it again, every reading whose words can all be written in EUC-JP has the same words in the same order; a reading with a word that cannot (an emoji, say) is gone, without an error and with all its other words. Line breaks are safe: damaged bytes have no effect beyond their line. Exception proved: ¥, ‾ and − (minus sign) are written without an error and come back as a backslash, a tilde and －; every other character that can be written comes back.", "quantifier": "all texts, all tables of JIS X 0208/0212 whose two directions agree, all plain dictionaries, all damaged files", "why_tests_cant": "The round trip must hold for every character and word; tests load two EUC-JP files and save none.", "anchors": ["src/dictionary/user_dictionary.rs: save_dictionary, encode_string", "src/dictionary/file_dictionary.rs: load_dictionary"]}
{"id": "C68", "title": "A whole C session", "statement": "A C program which keeps the rules of the header (it gives back only strings it holds, each once; its arrays are as long as it says) drives the context and the dictionary files exactly as the Rust program making the corresponding calls. After any number of calls in any order every string it holds still has, at its address, the text the Rust API returned, no other string is in use, and nothing is in use once everything was given back. A call fails only by aborting the process, in exactly described cases (a panic of the Rust call, a key text that does not parse, a NUL in certain texts of the preedit detail); otherwise its answer is that of the Rust API, NULL or -1 exactly for texts with a NUL, -1/false exactly for rule names and key texts that are not UTF-8 or rules that cannot be loaded. Exceptions proved: skk_context_process_key_events aborts on a text that is no key list and otherwise says true even if no key was taken; the underline range is always empty; a NULL first keyword switches all keywords off, a later one is dereferenced.", "quantifier": "all sequences of calls of the C API on a context, all contexts, dictionaries, files and rules, all byte strings", "why_tests_cant": "Memory faults and leaks depend on the whole interleaving of calls and releases; the C API has tests for a handful of single calls.", "anchors": ["src/capi.rs: skk_context_* , skk_free_string, skk_free_preedit_detail, skk_free_candidate_list, skk_library_get_version", "src/lib.rs: process_key_events_string, get_preedit_underline, set_rule"]}
{"id": "C69", "title": "A deleted capital letter is remembered", "statement": "While the current level remembers that a capital letter was typed, a further capital letter which continues or completes pending romaji does exactly what the small letter does. The user would expect BackSpace to make it forget a capital letter it removes; it does not: with the default rule, from direct input with nothing typed, any capital letter that begins romaji followed by two BackSpaces shows the same preedit as before, but every capital letter typed next is taken as a small letter and starts no word (K BackSpace BackSpace Ai commits あい instead of composing ▽あい); likewise a wrong okurigana letter removed in a reading makes the next one part of the reading.", "quantifier": "all contexts in a romaji mode, all romaji tables, all capital letters; the violation for all contexts in direct input under the default rule, all first and second capital letters", "why_tests_cant": "The wrong state is invisible: every query answers as before, and only a later key shows it; tests of single corrections cannot range over what is typed afterwards.", "anchors": ["src/lib.rs: transition_composition_mode_by_capital_letter, process_key_event_inner", "src/cskkstate.rs: CskkState::delete, capital_transition"]}
{"id": "C70", "title": "Teach once, recall for ever", "statement": "With a shipped rule, in direct input with nothing typed: typing the keys of a word that no dictionary knows and space asks for the word. Whatever is done there (keys, conversions, nested registrations, mode and candidate calls), when Return is pressed at that level with the text w written, w is committed after what was committed before. If the dictionaries are then saved, the program ends and another one opens the same dictionaries, then in every context of the new program, with either shipped rule, any keys which spell the same reading followed by space offer w; if nothing else was recorded for the reading meanwhile, w is all that is offered and is what the preedit shows. A pending n at the end of the keys counts as part of the reading.", "quantifier": "all contexts with a shipped rule, all readings without digits and all keys that spell them, all activity inside the registration, all words the dictionary file format can carry, all sets of dictionary files that do not collide", "why_tests_cant": "The claim spans typing, registration, the dictionary in memory, the file format and another process; a test fixes one word, one spelling and one history.", "anchors": ["src/lib.rs: process_key_event, enter_register_mode, exit_register_mode, save_dictionary", "src/dictionary/mod.rs: confirm_candidate, get_all_candidates", "src/dictionary/user_dictionary.rs: save_dictionary", "src/dictionary/static_dict.rs"]}
{"id": "C71", "title": "A whole text is delivered as it was written", "statement": "With a shipped rule, a text is written piece by piece in any order and number: romaji without capitals; a word begun with a capital letter and space n+1 times; a word with okurigana begun with a second capital letter and space n times; Ctrl-j; the key for the other kana mode; Latin letters between l and Ctrl-j. Then no key fails, a word that is shown is taken into the text by whatever is typed next, every choice is recorded in every dictionary before the next word is looked up, and the text the application gets is the concatenation of the pieces: kana in the form of the mode they were typed in, the n-th candidates the dictionaries then had, okurigana in kana, Latin letters as they are. The application may poll between any two keys.", "quantifier": "all texts (lists of pieces of any length), all dictionaries, both shipped rules, all kana modes and configurations, all polling schedules", "why_tests_cant": "A test types one text. The claim is about every sequence of pieces, where each leaves mode, pending keys, capital flag and dictionaries for the next.", "anchors": ["src/lib.rs: process_key_event, process_key_event_inner, confirm_current_composition_candidate, poll_output", "src/skk_modes.rs", "src/command_handler.rs", "assets/rules/default", "assets/rules/azik"]}
{"id": "C72", "title": "What is typed goes to the input method, not to the application", "statement": "With a shipped rule, from a new context on, after any calls (keys, polls, clicks on a word of the list that is shown, settings) of which none cancels, in every input mode and on every level of registrations: the key of every printable character is reported as consumed. Only a cancellation (Ctrl-g) can lead to a state where it is not: a list without a word, or a reading while the input mode is not a kana mode; there every key without a command is handed back and nothing changes.", "quantifier": "all sessions of calls without a cancellation, all dictionaries, kana tables and configurations, both shipped rules, all printable characters", "why_tests_cant": "A test types one session. The claim needs an invariant over all levels of the registration stack and all commands of the rule: a single reachable state in which a letter is not taken sends half a word to the application.", "anchors": ["src/lib.rs: process_key_event, process_key_event_inner_v2, process_instructions, enter_register_mode, exit_register_mode", "src/cskkstate.rs: abort_to_previous_mode, delete", "assets/rules/default", "assets/rules/azik"]}
{"id": "C73", "title": "Typing with corrections is a one-line editor", "statement": "With a shipped rule, characters and BackSpaces typed in direct input, or after the capital letter of a word, act as on a one-line editor of romaji: a character is spelled into the line, BackSpace deletes the last pending letter or else the last kana; the keys are all consumed and nothing else changes. A word typed with mistakes that are corrected converts, at the blank, to exactly what it converts to when it is typed without them: only the final line counts, the whole context is the same. BackSpace on the empty reading ends the composition.", "quantifier": "all sequences of characters and BackSpaces, all dictionaries and configurations, both shipped rules, the kana modes", "why_tests_cant": "Corrections can come at any point of any word, in the middle of a syllable, after a doubled consonant, at an n; whether a correction leaves a trace is a statement over all sequences of keys.", "anchors": ["src/lib.rs: process_key_event_inner_v2, process_instructions, input_hiragana", "src/cskkstate.rs: delete, push_string, push_string_to_composition", "src/form_changer/kana_form_changer.rs", "assets/rules/default", "assets/rules/azik"]}
{"id": "C74", "title": "When the program polls makes no difference to the user", "statement": "A program gives the keys to the library, acts itself on the keys that are handed back (after polling), and polls besides whenever it likes. For the same keys and other calls, deletions among them, the user ends up with the same committed text, and with the same composition, whatever the moments of the polls: a deletion takes the last character of the committed text be it in the library or in the program. (Without reset, change of the rule, and the key that erases a word from the dictionary.) In a registration whose text is empty BackSpace is handed back too, and deletes a character of the program's text behind the registration.", "quantifier": "all sessions, all interleavings of polls, all rules whose deletion keys delete in the program too, all dictionaries", "why_tests_cant": "A test fixes the moments of the polls. Deletions read the text that was not polled yet, so each poll changes what the next deletion does inside the library; that the sum is the same needs a simulation over all schedules.", "anchors": ["src/lib.rs: poll_output, process_key_event, process_instructions", "src/cskkstate.rs: delete, consume_confirmed", "src/capi.rs: skk_context_poll_output, skk_context_process_key_event"]}
{"id": "C75", "title": "The engine refines a small SKK machine", "statement": "What a user sees of a session with a shipped rule — the answer to every call (is the key taken, the text a poll delivers, is there such a word), and after every call the line that is shown, the input mode, the composition mode, the list of candidates and the cursor in it, and at any time the detailed preedit of every level, the reading to be converted and which key events are announced by will_process — and the dictionaries in the end, are what a small machine computes that knows only the written text, the input mode, what is being done (direct input, a reading, an abbreviation, okurigana, a shown word, a shown completion), what was done before it (to which Ctrl-g goes back), and the levels that wait for a registration. The machine has no rule files, no tries and no instructions; it covers typing, BackSpace, capital letters with or without Shift, the key that opens an empty reading, abbreviations, okurigana, conversion by space or by punctuation, completion by Tab and Shift-Tab, next and previous word, typing on (also when keys were pending as the word was asked for), confirmation by Enter and Ctrl-j, giving up with Ctrl-g and Escape, erasing a word with X, the mode keys with and without Ctrl, the other keys with Ctrl, released keys and keys with other modifiers and function keys (which are handed back), nested registrations (for readings with numbers too), and at any time polls, candidates selected or confirmed by number, a reset, and changes of the input mode, of the configuration, of the rule (default or AZIK) and of the dictionaries. Capital letters, digits and symbols are covered in every phase, as are commands, a registration at the deepest level and conversions started by a keyword. Every covered history can be continued by any printable character and by any other key but a listed few (such as BackSpace right after completed okurigana, Ctrl-g where the latest of what was done before is a list that has been left), as long as there is room for another registration, the word has at most 18 digits, and no text is registered that asks for the word (`#4`) of a number in the reading which has none. The engine never fails on a history the machine covers.", "quantifier": "all histories of calls which the machine covers, both shipped rules and changes between them, all configurations, all starting input modes, all dictionaries, all nesting depths", "why_tests_cant": "A test follows one history. That the whole hidden state (mode history, flags, stale candidate lists, raw reading, capital flag) never shows except as the machine says needs a simulation relation preserved by every key in every state.", "anchors": ["src/lib.rs: process_key_event_inner_v2, process_instructions, handle_capital_char_transition, enter_register_mode, exit_register_mode, abort, get_preedit, poll_output", "src/cskkstate.rs: preedit_string, delete, change_composition_mode, abort_to_previous_mode, consolidate_converted_to_to_composite", "assets/rules/default", "assets/rules/azik"]}
{"id": "C76", "title": "A list of words is offered only while one is chosen", "statement": "After every history of API calls with a rule whose commands leave the choosing modes only when the list is gone (both shipped rules do): if the candidate count is not zero, then the composition mode is CompositionSelection or Completion, and the cursor position names a candidate of the list. So a candidate window that follows the count never stays open after a word was confirmed, typed over, given up, purged or put aside for a registration. Exceptions, proved as such: the composition mode set by hand through the API, and a registered word that asks for the word (#4) of a number in the reading which has none.", "quantifier": "all rules with that property, all dictionaries, all histories of keys, polls, resets, input mode changes, candidate selections and confirmations by index, configuration, rule and dictionary changes, all nesting depths", "why_tests_cant": "The list is created in three places and must be cleared on every way out of the choosing modes (confirmation, implicit confirmation, abort, purge, previous, selection by index, registration and its end); a test tries one way out.", "anchors": ["src/lib.rs: confirm_current_composition_candidate, purge_current_composition_candidate, try_next_candidate, try_next_completion, enter_register_mode, exit_register_mode, abort, skk_context_select_candidate_at_rs, skk_context_confirm_candidate_at_rs", "src/cskkstate.rs: clear_unconfirmed, clear_candidate_list, abort_to_previous_mode", "src/candidate_list.rs"]}
{"id": "C77", "title": "Words written as (concat \"…\") are read as Emacs reads them", "statement": "A text in which a (concat \"…\") stands is read as the string it means: a character stands for itself, a backslash and a character for the character, a backslash and one to three octal digits for the character of that number; the text around it stays. A text without (concat stays as it is. So a dictionary line whose words and annotations are written in either way offers exactly the meant words and annotations (with / and ; in them). Exception, proved as such: a number that is not closed by a backslash swallows the backslash of a number that follows it directly.", "quantifier": "all strings made of plain characters, quoted characters and octal numbers, without ambiguity and without backslashes among the meant characters; all texts before and after; all dictionary lines of such words", "why_tests_cant": "Three regular expressions and first-occurrence replacements interact: the replacement of one number could hit another place, or the unquoting could eat a character produced by a number; a test shows three strings.", "anchors": ["src/dictionary/dictentry.rs: process_lisp_fun, process_lisp_fun_inner", "src/dictionary/dictionary_candidate.rs: from_candidate_prototype", "src/dictionary/dictionary_parser.rs"]}
{"id": "C78", "title": "Several threads may change, save and reload shared dictionaries at the same time", "statement": "Several threads look up, learn, purge, save and reload words of shared dictionaries whose files are different. Under every schedule of their steps (a save consists of a rename, a create and writes of any sizes, with other threads running in between): each thread's calls take effect in its order, each one time; if no call of the operating system fails, every dictionary is at every moment what the finished calls, made one after the other by a single thread, would make of it, its file has what such an execution would leave in it whenever nobody holds its lock, and when the program is killed in the middle of a save the file or the backup has it; even if calls fail, a dictionary without unsaved changes always has a complete file of its words; if every thread saves after its last change, nothing is unsaved when all have ended; and no thread waits forever: whoever waits, waits for one that can go on, and all can end. Exception, proved as such: dictionaries opened on the same file twice have different locks, and two saves at the same time can leave neither the file nor the backup complete.", "quantifier": "all numbers of threads, all programs of calls, all dictionaries and files, all interleavings of steps, all answers of the operating system (all that succeed for the first and third clause), all points at which the program ends", "why_tests_cant": "The number of interleavings of a save with other threads' calls and of points at which a process may be killed is unbounded, and a test cannot choose them.", "anchors": ["src/dictionary/mod.rs: CskkDictionary, confirm_candidate, purge_candidate", "src/dictionary/user_dictionary.rs: save_dictionary", "src/dictionary/file_dictionary.rs: reload", "src/lib.rs: save_dictionary, reload_dictionary"]}
{"id": "C79", "title": "Several contexts which share dictionaries refine several SKK machines on one shelf", "statement": "Several contexts, each with its own shipped rule, configuration, input mode and list of dictionaries, share dictionaries in any way. Calls are made at them in any order, and contexts may change their lists of dictionaries (no dictionary two times in a list). As long as the machines of C75 cover the calls, no call fails; every application gets the answer its own machine gives; after every call the screens of all applications (line, modes, candidates, cursor) are those of their machines; and every shared dictionary is at the end the one on the common shelf. So nothing passes between applications but what is learned in or purged from a dictionary both use: a list which is already open does not change, a call changes no other screen, and a word chosen in one application is seen by the next look-up of every other application which uses the dictionary.", "quantifier": "all numbers of contexts, all sharings of dictionaries, all interleaved histories of calls which the machines cover, both shipped rules, all configurations, modes and dictionaries", "why_tests_cant": "The interleavings of calls at several contexts and the ways of sharing dictionaries are unbounded; a leak between contexts would show only in some of them.", "anchors": ["src/lib.rs: CskkContext, process_key_event, poll_output, set_dictionaries, select_candidate_at, confirm_candidate_at", "src/dictionary/mod.rs: CskkDictionary (Arc<Mutex<..>>), confirm_candidate, purge_candidate"]}
{"id": "C80", "title": "A C input-method front end sees what the SKK machine shows", "statement": "A C program which keeps the rules of the header drives a context over the C API: keys as fcitx sends them or written as a text, polls, candidates selected or confirmed by number, settings, rule changes, resets, saves, questions for the preedit, the detailed preedit, the reading to be converted, the underline, the version, the modes, the number of candidates, the cursor and pages of candidates, and strings and arrays given back, in any order. As long as the machine of C75 covers the keys, no call fails or aborts, and what every call returns — flag, number, mode, the text at the returned address, the texts in the array, the texts of the levels (those with a NUL excepted) — is what the machine shows at that moment (NULL or -1 exactly for texts with a NUL inside); the dictionaries and the files after saves, with any answers of the operating system, are those the machine's words give.", "quantifier": "all C programs that keep the rules, all histories of calls which the machine covers, both shipped rules, all configurations, modes, dictionaries and files, all answers of the operating system to saves", "why_tests_cant": "A test follows one program. That the C layer never mixes up strings, pages, flags or modes, in whatever order calls and releases come, and that nothing of the engine's hidden state shows, must hold for all of them.", "anchors": ["src/capi.rs: skk_context_process_key_event, skk_context_process_key_events, skk_context_poll_output, skk_context_get_preedit, skk_context_get_current_candidates, skk_context_get_current_candidate_cursor_position, skk_context_select_candidate_at, skk_context_confirm_candidate_at, skk_context_save_dictionaries, skk_free_string, skk_free_candidate_list", "src/lib.rs: process_key_event"]}
{"id": "C81", "title": "A user's life with the engine is one life of the SKK machine, which never forgets", "statement": "Programs come and go: each opens the same dictionaries, creates a context with a shipped rule, a configuration and an input mode of its choice, is used by keys and other calls, saves at any time (the disk may refuse to rename, or stop writing at any byte, as long as the file is not lost between its renaming and its creation), may save and reload, finally saves successfully and ends. Everything that is answered and shown in all these programs is what the machine of C75 says which has no files and simply keeps its words from one program to the next: no word learned, no order of words, no purge is forgotten or comes back, and no program fails. In the end the files hold the words the machine knows. This holds as long as the files of the dictionaries are different files, everything can be encoded, and the words of the user's dictionaries at each save and reload are such as the file format can carry.", "quantifier": "all lives of any number of programs, all rules, configurations, modes and histories of calls the machine covers in each, all starting files with well-formed dictionaries, all points at which saves happen and all ways in which they fail", "why_tests_cant": "A test restarts once, at one point of one history. That nothing visible is lost over any number of restarts needs that the layout of a reloaded dictionary (order of entries, dropped empty groups) never shows, and that what can be written stays writable.", "anchors": ["src/lib.rs: process_key_event, save_dictionary, reload_dictionary, skk_context_new_rs", "src/dictionary/user_dictionary.rs: new, save_dictionary, select_candidate, purge_candidate", "src/dictionary/file_dictionary.rs: reload, load_dictionary", "src/dictionary/mod.rs: new_user_dict, new_static_dict"]}
{"id": "C82", "title": "Over a user's whole life with C programs, what was saved is there, and what is read is what the SKK machine shows", "statement": "One C program after the other opens the user's dictionaries, makes a context with a shipped rule, a configuration and an input mode, drives it over the C API by any calls in any order (keys, polls, candidates, settings, rule changes, resets, questions, strings and arrays given back), saves whenever it likes (the disk may refuse to rename or stop writing at any byte, as long as no file is lost between its renaming and its creation), and ends whenever it likes: after its last successful save it may go on with any calls and be killed, or it may be killed without ever having saved. Then the next program can open the dictionaries, and they hold exactly the words which the machine of C75 had when the programs saved for the last time. At any moment of the next program every call which the machine covers succeeds, and the flag, number, mode, text at the returned address, array of texts or detail it returns is what that machine says, which has neither files nor memory; and every string the program holds still has its text. The machine's words at each last save are to be such as the file format can carry, and every encoding total.", "quantifier": "all lives of any number of C programs which keep the rules of the header, all calls in all orders, all points at which programs save, fail to save and end, all starting files with well-formed dictionaries, all rules, configurations and modes", "why_tests_cant": "A test runs one program for one session and restarts once. That no string handed out goes stale, no learned word that was saved is lost, and none that was not saved comes back, for every order of calls, saves and deaths of programs, is a statement about all histories of memory, files and contexts together.", "anchors": ["src/capi.rs: skk_context_process_key_event, skk_context_poll_output, skk_context_get_preedit, skk_context_save_dictionaries, skk_free_string", "src/lib.rs: process_key_event, save_dictionary", "src/dictionary/user_dictionary.rs: new, save_dictionary", "src/dictionary/file_dictionary.rs: load_dictionary"]}
{"id": "C83", "title": "A careful user never loses a word", "statement": "The file format cannot carry every word the engine can learn. A user is careful who registers words only for readings without okurigana and without full stop, which can stand in a dictionary line, and only words such a line can hold; who chooses words with okurigana only if these are hiragana; and who does not erase the last word with given okurigana. If the words of the dictionaries could be saved when the first program began, then at any moment of anything a careful user does, with the engine or over the C API, every word of every dictionary can be saved; and over any number of programs, each of which reads the files the one before has saved (C programs may also end by surprise after a save, or without one), what is answered and shown is what the SKK machine says, which has no files and does not forget, and in the end the files hold exactly the words it knows.", "quantifier": "all lives of any number of programs of a careful user: all acts and C calls in all orders, all points of saves, failing saves, reloads and deaths, all starting files with savable words, all rules, configurations and modes", "why_tests_cant": "That nothing a user can do within the stated rules makes a word which the file format would lose is an invariant over all histories of typing, converting, registering, choosing and erasing; tests save and reload a few words.", "anchors": ["src/dictionary/user_dictionary.rs: select_candidate, purge_candidate, save_dictionary", "src/dictionary/dict_entry.rs: DictEntry", "src/dictionary/file_dictionary.rs: load_dictionary", "src/lib.rs: confirm_current_composition_candidate, purge_current_composition_candidate, process_key_event"]}
{"id": "C84", "title": "A word registered with okurigana becomes, in the file, a word without okurigana, or is lost", "statement": "The engine registers a word with okurigana under the reading without the letter the okurigana begin with, and finds words with okurigana only with this letter. So the word is not found when it is asked for again. When the dictionary, which held only words a file can hold, is saved and read again, the word is no longer a word with okurigana: if the user had words for the reading without okurigana it is lost, if not it is offered for the reading without okurigana from then on; and all other words are as before. In general, the words read back from any file of savable entries are the words with okurigana whose reading ends with a letter, the words without okurigana, and, for readings without letter which have no words without okurigana, the words with okurigana.", "quantifier": "all dictionaries with savable words, all readings, words and okurigana, all encodings which can write every character", "why_tests_cant": "What becomes of an entry depends on all others in both sections of the file; a test sees one dictionary.", "anchors": ["src/dictionary/user_dictionary.rs: save_dictionary, select_candidate", "src/dictionary/file_dictionary.rs: load_dictionary", "src/lib.rs: enter_register_mode, process_key_event"]}
{"id": "C85", "title": "Years with several contexts which share saved dictionaries: no application ever forgets a word", "statement": "Every day a program opens the user's dictionaries once and several contexts, each with its own shipped rule, configuration, input mode and list of dictionaries (none two times in a list), share them. Calls are made at the contexts in any order; any context may save its dictionaries at any time (the disk may refuse to rename, or stop writing at any byte, as long as no file is lost between its renaming and its creation), save and reload them, and use other dictionaries. In the evening contexts save, such that every user dictionary is in the list of one of them, and the program ends. Everything the applications get and everything on all screens, over all days, is what the machines of C79 say, which stand around one shelf, know nothing of files and never forget: a word learned, chosen or erased in one application is known to all which use the dictionary at once, and to all programs of later days; a save or reload of one application changes nothing another one sees; no program fails; and in the end the files hold the words on the shelf. The words are such as the file format can carry; that is so at every moment if it was so in the beginning and the users are careful at every application in the sense of C83.", "quantifier": "all numbers of days and contexts, all sharings of any list of dictionaries on different files, all interleaved histories of calls, saves, failing saves and reloads which the machines cover, both shipped rules, all configurations, modes and starting files with well-formed dictionaries", "why_tests_cant": "Tests save one dictionary from one context. That saves by one context and edits by others never lose words needs an invariant which relates all contexts, all shared dictionaries and all files over every interleaving and every restart.", "anchors": ["src/lib.rs: save_dictionary, reload_dictionary, set_dictionaries, process_key_event", "src/dictionary/user_dictionary.rs: save_dictionary", "src/dictionary/file_dictionary.rs: reload", "src/capi.rs: skk_context_save_dictionaries, skk_context_reload_dictionary, skk_context_set_dictionaries"]}
{"id": "C86", "title": "A rule file puts into effect what its text says", "statement": "The text of a rule file (tables `[a.b]`, entries `key = \"text\"` or `key = [\"text\", …]`, keys bare or quoted, arrays over several lines, escapes of one character, comments) is read as the document it spells according to the grammar of TOML, and it is refused if a table or a key is there twice, or if an entry is also a table. A file of the form of the shipped rules is accepted iff it has a table `[conversion]` and the keys and commands of all tables for a pair of modes can be read; then, in each pair of modes, exactly the keys listed in the text of the table for these modes have commands, those of the last line for the key, and the conversions are those of `[conversion]`. Spaces, comments, blank lines (in arrays too), quotes around keys and the order of the tables make no difference. The bytes of the shipped files give the commands, conversions and character forms of which all other properties speak: where they are in place, a new context has the default rule, `set_rule` with \"azik\" and \"default\" switches, and no other name is a rule.", "quantifier": "all texts of files in the part of TOML described, all file systems, directories and contexts, all pairs of modes, keys and commands", "why_tests_cant": "Tests load the shipped rules and a few broken ones. That every text is read as what it says, whatever its layout, ranges over all texts.", "anchors": ["src/rule.rs: CskkRule::load_rule_file, CskkRuleMetadata::load_metadata_from_path, load_rule", "src/lib.rs: CskkContext::new, set_rule, set_rule_from_directory", "src/form_changer/kana_form_changer.rs: from_string", "src/form_changer/ascii_form_changer.rs: from_string", "assets/rules, assets/rule"]}
{"id": "C87", "title": "The rules which are listed are those which can be chosen", "statement": "`get_available_rules` lists exactly the rules which the text of the metadata file describes, each once, in the order of their identifiers, with the name and the description in the text; the C function `skk_get_rules` hands out an array with one element for each of them, in the same order, with the same three texts. `set_rule` with an identifier takes the rule from the path which the table of that identifier gives: it loads a rule iff the table is there and the rule file in that directory can be read, and whatever `set_rule` accepts is in the list. With the shipped files the list has exactly \"azik\" and \"default\", and both can be chosen.", "quantifier": "all texts of metadata files in the part of TOML described, all directories and file systems, contexts, identifiers, states of the memory of a C program", "why_tests_cant": "One test lists the shipped rules. That list and choice agree for whatever metadata a user installs ranges over all files.", "anchors": ["src/lib.rs: get_available_rules, CskkContext::set_rule", "src/rule.rs: CskkRuleMetadata::load_metadata_from_path, load_rule, get_rule_list", "src/capi.rs: skk_get_rules"]}
{"id": "C88", "title": "A byte order mark is not part of a dictionary", "statement": "A dictionary in UTF-8 whose file begins with the byte order mark of UTF-8 has the words it has without the mark, whatever the bytes after it. What is saved has no mark, so a user dictionary loses its mark with the first save and is read the same afterwards; all that holds for dictionaries in UTF-8 (saving, crashes, sessions, restarts) holds for files with marks too. A file without a mark is read as its label says. A file which begins with a mark is read completely with a label that is not known, in UTF-8 and in both byte orders of UTF-16, and with the label of UTF-16.", "quantifier": "all contents of files, all texts, all tables of labels, all labels, all dictionaries", "why_tests_cant": "No test has a file with a mark. That the mark alone is removed, from every file, and never written ranges over all contents.", "anchors": ["src/dictionary/file_dictionary.rs: load_dictionary", "src/dictionary/user_dictionary.rs: save_dictionary"]}
{"id": "C89", "title": "A life with programs which start from nothing but files", "statement": "With the five files of the package in place, a program starts iff its dictionaries can be opened, and then in exactly one way: the context has the commands, conversions and character forms of which all other properties speak. Whatever a program does, and however its saves fail, those files stay as they are, unless a user dictionary is kept in one of them. So a user's life can be told from files alone: one C program after the other opens the dictionaries, makes a context, chooses a rule by its name, makes any calls, saves whenever it likes and ends whenever it likes; then the next program can start, its dictionaries hold the words which the SKK machine remembers, and any call which the machine knows succeeds and returns what the machine says, which has no files, no rules to read and no C.", "quantifier": "all file systems which hold the package, all lists of dictionaries kept apart, all sequences of programs and calls, all outcomes of saves, all rules, configurations and modes", "why_tests_cant": "Tests start one context with files of their own. That reading the rules, the forms and the dictionaries, typing, saving and starting again fit together ranges over all lives.", "anchors": ["src/lib.rs: CskkContext::new, set_rule, save_dictionary", "src/rule.rs: load_metadata, load_default_rule, load_rule", "src/form_changer/ascii_form_changer.rs: default_ascii_form_changer", "src/form_changer/kana_form_changer.rs: default_kanaform_changer", "src/capi.rs"]}
{"id": "C90", "title": "A file of character forms means what its text says", "statement": "The file of the ASCII forms: a character is written as the text in the array `zenkaku` at the place where the character stands for the last time in the array `hankaku`; it is kept if it does not stand there or the arrays are not equally long; a text is written character by character. The file of the kana forms: a text is rewritten from left to right, always the longest sequence which is a key of the table, `[katakana]` for katakana and `[jisx0201]` for half-width katakana; hiragana is kept. Without the files nothing is rewritten. If the files are missing or of this form, `new_with_empty_fallback` gives a context whatever there is of rules. Exception proved: a file which is found but cannot be read, or whose array is a text, leaves every constructor without a context, the fallback too.", "quantifier": "all texts of the files in the part of TOML described, all file systems, all characters and texts", "why_tests_cant": "Tests use the shipped files and a few tables. That any text of a file gives the forms it spells ranges over all texts.", "anchors": ["src/form_changer/ascii_form_changer.rs: default_ascii_form_changer, from_file, from_string, adjust_ascii_char", "src/form_changer/kana_form_changer.rs: default_kanaform_changer, from_file, from_string, adjust_kana_string", "src/lib.rs: CskkContext::new_with_empty_fallback, new_empty"]}
{"id": "C91", "title": "A program finds its files from its environment", "statement": "Rules are looked for as the XDG Base Directory Specification says: first in the user's directory ($XDG_DATA_HOME if it is a path from the root, otherwise .local/share at home), then in the directories of $XDG_DATA_DIRS which are paths from the root (if there is none, /usr/local/share and /usr/share), and the first which has them counts. If the variables are not set or hold paths from the root, the tables of character forms are found at the same places. So if the package lies in one of these directories and nothing of it in those before, a program with nothing but its environment starts; and so does every later program, whatever the programs before it did, with all that C89 says of its calls and of the words it knows. Exceptions proved: without a home directory no context can be made, whatever the variables say; with XDG_DATA_HOME set to the empty text the rules are found at home and the tables of forms are not; a directory libcskk/rules of the user without metadata.toml hides the rules of the system.", "quantifier": "all environments, all systems of files in which repeated slashes do not matter, all directories of the package, all sequences of programs and calls, all outcomes of saves", "why_tests_cant": "The only test of the search is ignored, because it would need a file system of its own. That the two searches, one of a crate and one in env.rs, agree ranges over all environments.", "anchors": ["src/env.rs: filepath_from_xdg_data_dir, search_path_from_xdg_data_dir", "src/rule.rs: load_metadata", "src/form_changer/ascii_form_changer.rs: default_ascii_form_changer", "src/form_changer/kana_form_changer.rs: default_kanaform_changer", "src/lib.rs: CskkContext::new"]}
{"id": "C92", "title": "Every entry of the shipped rules can be typed", "statement": "With either shipped rule, in kana input with nothing pending, pressing the keys which the rule's table lists for an entry gives exactly what the entry says. When text is committed directly, the entry's kana is committed, in hiragana, katakana or half-width katakana according to the input mode, and the entry's carry stays pending. While a reading is typed, the kana is appended to the reading, unless it makes the reading end in a word which starts the conversion. Exceptions proved: `n` of the default rule waits for the next key, and two lines of the AZIK rule file, \"nl\" (のん) and \"ch\" (ちゅう), which are read as the single keys of those names: `n l` changes to ascii input and writes nothing, `c h` forgets the c.", "quantifier": "every entry of the two shipped tables (236 of the default rule and 541 of AZIK), every state of the context in which nothing is pending, every kana input mode, every configuration, with or without the user's dictionaries", "why_tests_cant": "The tests type some entries in a new context. That every entry works depends on how all entries of a table share their beginnings, on which of their keys are commands in the mode, and on the state of the context, which is unbounded.", "anchors": ["/repo/assets/rules/default/rule.toml", "/repo/assets/rules/azik/rule.toml", "/repo/src/kana_builder.rs:KanaBuilder", "/repo/src/rule.rs:CskkRule", "/repo/src/keyevent.rs:KeyEvent", "/repo/src/lib.rs:CskkContext::process_key_event"]}
{"id": "C93", "title": "Whatever the kana and the dictionaries can express can be written", "statement": "With a shipped rule, in direct hiragana input with nothing typed: for every text one may want, put together in any order and number from hiragana, katakana, words of the dictionaries (any number in the list for any reading of hiragana, or for any Latin letters), words with okurigana (any first kana of it), and passages of Latin letters, there is a sequence of keys (printable characters and Ctrl-j) after which the application gets exactly this text after what was committed before, and the dictionaries have learnt exactly the chosen words. In particular every word which some dictionary lists for a reading of hiragana, or for Latin letters without digits, can be written. Every hiragana from ぁ to ゖ and the long vowel mark can be used, also as the first of a reading, with these limits: AZIK has no keys for ゐ ゑ ゕ ゖ (proved: they are in no entry); okurigana does not begin with ー; no word of the configuration that starts the conversion is inside the reading.", "quantifier": "every list of wishes of any length, every reading and every content and number of dictionaries, every state in direct hiragana input with nothing typed, both shipped rules, every configuration", "why_tests_cant": "A test types keys and compares what comes. That every text has keys needs an argument over the whole rule table, over readings of any length and over all contents of the dictionaries, which change with every word that is chosen.", "anchors": ["/repo/assets/rules/default/rule.toml", "/repo/assets/rules/azik/rule.toml", "/repo/src/lib.rs:CskkContext::process_key_event", "/repo/src/kana_builder.rs:KanaBuilder", "/repo/src/dictionary/mod.rs:get_all_candidates"]}
{"id": "C94", "title": "There is always a way back", "statement": "With a shipped rule, after any history of calls of a new context which the SKK machine of C75 knows (keys of all kinds, polling, choosing from the list, changing modes, rules, keywords and dictionaries, resets), with any number of registrations open that were not begun by a keyword: a fixed sequence of keys (Ctrl-j, Ctrl with the kana key, l, Ctrl-j; Ctrl-g and the same again for each open registration) ends every registration and leads to direct hiragana input with nothing typed. What the application has not yet taken is not lost: it comes first in what is delivered. From there everything that C93 says can be written can be written. No state is a trap.", "quantifier": "every history of calls of any length which the machine knows, every number of open registrations, every shipped rule, configuration, dictionaries, and every text wanted afterwards", "why_tests_cant": "A trap is a state from which no keys lead out: to exclude it needs an argument over all states that histories of any length reach, and for each of them that keys exist; a test follows one history.", "anchors": ["/repo/src/lib.rs:CskkContext::process_key_event", "/repo/src/lib.rs:CskkContext::abort_register_mode", "/repo/assets/rules/default/rule.toml", "/repo/assets/rules/azik/rule.toml"]}
