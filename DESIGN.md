# Formal model of naokiri/cskk in Lean 4 — design

(The plan was written before the proofs; the sections after it are kept up to date with the model.)

## Layout

* `lean/Verif/Model/*.lean` — the model: total computable functions, one per Rust function, each with a
  comment citing file and lines of `/repo`.
* `lean/Verif/Spec/*.lean` — small specifications written independently of the model.
* `lean/Verif/Lemmas/*.lean` — helper lemmas.
* `lean/Verif/Props/*.lean` — the property theorems (one namespace per property group), with a non-vacuity
  example beside each of them, and the negative witnesses where the code violates the English property.

## Modelling conventions

* `String`/`&str` is `List Char` (Unicode scalar values). Rust's byte-wise `Ord` on strings equals
  lexicographic code-point order, which is what the model uses.
* `&mut self` methods become functions returning the new value. `Option`/`Result` stay data.
* A panic is an explicit error value. Behaviour that differs between debug and release builds
  (arithmetic underflow, `debug_assert!`) takes a build-profile parameter; theorems quantify over it.
* `HashMap` is an association list / function with no observable iteration order (the code never iterates one
  in an observable way, except where noted). `BTreeMap` is a key-sorted association list.
* File system: a finite map from paths to byte contents, with explicit crash points.
* Locking/threads: the context is used under one exclusive borrow; `Model/Locks.lean` models the mutexes of shared dictionaries (C53).

## Plan per property

| id | what is modelled | how it is proved |
|----|------------------|------------------|
| C01 | `process_key_event` of the whole context | unfolding |
| C02 | `process_key_event_inner_v2`, `get_instruction` | unfolding, case analysis on modifiers; SHIFT: the key event enters the engine only through `symbol`, the command lookup and `is_modifierless` |
| C03 | `poll_output`, `retrieve_output` | algebra on the bottom state |
| C04 | state stack, enter/exit/abort registration, preedit | invariant by induction over all API histories |
| C05 | `reset` and following keys | positive part by unfolding; negative witness: stuck forever, by induction over keys |
| C06 | `CandidateList` | invariant over op sequences; negative witnesses for the empty list |
| C07 | `get_all_candidates`, dedup | induction over the fold |
| C08, C09 | `DictEntry`, `UserDictionary` | list lemmas + map refinement |
| C10 | `Dictionary` sum type | case analysis, lifted to histories |
| C11 | pointer heap of `LruOrderedMap` | refinement to an abstract recency list, induction over op sequences |
| C12, C13, C15 | printer, lisp escape, nom parser, loader | round-trip by structural induction; negative witnesses |
| C14 | save as a list of file-system steps | all prefixes of the step list |
| C16–C22 | numeric forms | arithmetic induction, independent kanji reader |
| C23, C24 | form changers | list induction; for the shipped tables the forms are given by `Spec/FormTables.lean` for every text |
| C25 | romaji trie as prefix queries over a table | unfolding and list lemmas |
| C26, C27 | key events | bit vectors; well-founded recursion |
| C28 | `complete` | sortedness ⇒ contiguity of prefixes |
| C29, C35 | candidate order | list lemmas |
| C30 | registration exit | composition of C08 lemmas; negative witness for okuri-ari |
| C31 | mode history | invariant |
| C32 | `will_process` | purity; exact agreement conditions; negative witnesses; `foresight`: announcement against answer along the histories of C75, by cases of key and phase |
| C33 | C API slice copying | list lemmas |
| C34 | preedit vs detail | case analysis |
| C36 | typing in Ascii mode | induction over the text |
| C37, C38 | state `delete`/`push` | invariant; negative witness |
| C39 | `has_change` | history induction |
| C40 | `confirm_current_composition_candidate` | unfolding |
| C41 | loading of dictionary files | induction over the lines |
| C42 | strings and structures handed to C, as a heap of C strings | heap invariant, closed form of the allocations |
| C43 | candidate navigation commands and the select call, on any context that is choosing | closed form of the resulting context, induction for repetition |
| C44 | conversion and completion commands, from pending romaji to the candidate list | closed form of the resulting context from the dictionaries' answer |
| C45 | character input in the kana modes, one key and whole texts | transducer on the list of entries (Spec/Typing.lean), simulation by induction on the text; readable corollary by the relation Spells |
| C46 | capital letters, okurigana, auto-start keywords | closed form of the context per key, induction on the text, composition with C44 |
| C47 | `from_str`, `keysyms_from_str` over an arbitrary xkb naming function | bit-level specification of the modifiers, induction on the words |
| C48 | `converter_from_hashmap` | from the table-level theorems of C25; permutation invariance |
| C49 | all calls on a context, with the panics of the code as errors | invariant (digits per level) through every function of the context, induction on the history |
| C50 | a store of dictionaries, contexts naming the ones they use, calls interleaved | simulation of one context by its own calls; edits per call as functions on dictionaries; induction on the interleaving |
| C51 | `skk_get_rules`/`skk_free_rules` on the C heap, with the capacity of a pushed `Vec` | heap invariants, induction on the list |
| C52 | XDG search, rules metadata as a parameter, `set_rule`, fallback constructor | list search lemmas; induction on the typed text |
| C53 | the dictionary functions as programs taking and releasing locks; threads under a schedule | lock invariant; well-founded order on the threads; invariants relating store, log and programs; each program run alone refines the sequential function |
| C54 | UTF-8 as the automaton of the Encoding Standard (`Model/Utf8.lean`) | arithmetic on code points for one character; an invariant of the decoder states shows that only the byte 0A decodes to a line break; then the theorems of C12/C41 for the concrete codec |
| C55 | handles, contexts and key events with reference counts (`Model/Handles.lean`), against the view of the caller without counts (`Spec/Handles.lean`) | invariant: the count of a dictionary is the number of references to it in the live handles and contexts; preserved by every call that keeps the rules |
| C56 | Model/SaveFaults: save with every outcome of the OS, life events; Spec/Persist: abstract life over a table of words | refinement (simulation) between files+entries+bytes and the abstract life, by induction over the history; edits commute with the table, plain dictionaries stay plain under edits and under save+load; invariant "clean ⇒ file holds the words" |
| C57 | two contexts with different dictionaries (`Spec/SameWords.lean`), all calls | two-run simulation through every function of the context (`Lemmas/CtxTwin.lean`): lookups, completions and relookups depend only on the table of words; confirm and purge keep the relation |
| C58 | keys bound to `ForceKanaConvert`, `ChangeInputMode`, `ConfirmAs` (`Spec/ModeKeys.lean`) | executing the instruction lists on an arbitrary context; the shipped bindings and the entries ending in a command key are computed from the tables |
| C59 | working inside a registration (`Spec/Registration.lean`) | a closure argument through every function for properties which survive everything but leaving a level (`Grow` in `Lemmas/CtxFrame.lean`), one instruction at a time for the two which leave; induction over the calls |
| C60 | reading a rule file (`Spec/RuleText.lean`) | the greedy unanchored regular expression characterised by induction over the text (`captures_iff`), the tables by induction over their lines; the two shipped files computed by the kernel |
| C61 | the format of dictionary lines (`Spec/DictGrammar.lean`) | induction over the items with the `nom` combinators unfolded (`Lemmas/DictLine.lean`); for lines without brackets inversion lemmas for every combinator, so that the accepted language is exact; whole files: `HasLines` of `Props/FileLines.lean`, by induction over the text |
| C62 | keys from conversion to confirmation or purge, and the next conversion (`Spec/Merge.lean`, `Props/WordCycle.lean`) | composition of C44, C43, C40; the merged list in closed form commutes with taking out a word |
| C63 | a key typed while a candidate is shown (`Props/TypeOn.lean`) | equality with confirming and then typing; the transducer of C45 for whole texts |
| C64 | Tab, Return, Escape (`Props/CompletionCycle.lean`) | composition of C28, C43, C40 along the number of Tabs |
| C65 | Model/Session: opening, saving and reloading all dictionaries of a context over a file system; Spec/Session | invariant (each dictionary in step with its file) along the acts; restart by C56 and C57 |
| C66 | Model/Label: labels, reading bytes as they are, saving with a label, poisoned lock, UTF-16LE | refinement to Model/DictFile for known labels; induction on lines and code units for the others |
| C67 | Model/EucJp: the EUC-JP encoder and decoder of the Encoding Standard over abstract JIS tables | induction over texts and bytes; save and open through Model/Label and C10 |
| C68 | whole C sessions: refinement of Rust sessions, ledger of strings | ghost ledger of strings handed out and given back, simulation by Session.actAll, induction on the calls |
| C69 | BackSpace does not forget a deleted capital letter | romInput with the flag set equals the small letter's; BackSpace as `delete` computed exactly for the default rule |
| C70 | A word taught once is offered from then on, over restarts | keys of a word computed as in C44/C46 but with pending keys; C59 for the registration; MovedToFront for the dictionary; C65 invariant for save and open; SameWords for the lookup in the new program |
| C71 | A whole text (kana, words, okurigana, katakana, Latin) is delivered as it was written, under any polling schedule | invariant `At` between context and page, one lemma per kind of piece from C25, C44, C46, C58, C62, C63, induction over the text; C03 (both directions) for the schedules |
| C72 | In every session without a cancellation every printable character is taken, in all modes and on all levels | invariant (edited level `Fit`, waiting levels `Waits`) over all calls; the commands of the two rules are checked by an abstract interpretation proved sound; converse and witnesses for Ctrl-g |
| C73 | Characters and BackSpaces act as on a one-line editor; a word typed with corrected mistakes converts as the word typed straight | simulation of the key handler by the editor of `Spec/Editing.lean`, stroke by stroke, for both shipped rules; `same_line`: equal final lines give equal contexts |
| C74 | The text and the composition the user ends up with do not depend on when the program polls, deletions included | every schedule is simulated by the context which is never polled (`paper`), deletions being applied by the program when handed back; witness `registration_leaks` |
| C75 | What is answered and seen in a session (keys taken, texts polled, lines shown, input and composition modes, candidate lists and cursors; also selection by number, resets, settings, rule and dictionary changes) is what the machine of `Spec/Machine.lean` computes | simulation relation `Rel` (levels, pending keys, what was done before (`Past`: the mode history, but for a leading direct input), candidate list), one lemma per phase and key, then induction over the history; `answers_key`: which keys are covered, by cases |
| C76 | If candidates are offered, the mode is a choosing mode and the cursor is on one; all API calls, tidy rules | invariant on the top level (list nonempty → choosing mode and cursor inside) and the waiting levels (list nonempty → the mode they come back to is CompositionSelection), preserved by every instruction with a flag "the list is gone" along each command |
| C77 | `process_lisp_fun` on strings written as in Emacs Lisp (`Spec/Concat.lean`), and dictionary lines of such words | induction over the pieces: every first-occurrence replacement hits the leftmost number because what stands before has no backslash; then the unquoting pass; the greedy match of the expression ends at the last parenthesis |
| C78 | threads doing jobs (look, confirm, purge, save, reload) under the mutex of one dictionary each; rename, create and every write of a save are steps of their own (`Model/Disk.lean`) | invariants over all steps: the owner of a lock is the thread in the critical section; what is being written is the words; the file or the backup has the contents of the sequential reference; the log of a thread and the rest of it make its program; witness `torn` |
| C79 | several contexts (`Model/World.lean`) against several machines on one shelf (`Spec/Office.lean`) | the simulation relation of C75 for every context at once, kept when other dictionaries come into hand (`at_dicts`), induction over the interleaved history |
| C80 | the C session (`Model/CSession.lean`) against the machine with files (`Spec/Front.lean`) | composition of C68 (every C call is Rust calls and hands out exact copies) with the simulation relation of C75, per call and then over all histories |
| C81 | chapters of events over files (`Spec/Life.lean`: `lives`) against the machine's life without files (`Lived`) | the simulation of C75 on a ghost context, related to the real one by C57 with a stronger relation on dictionaries (`Held`: same words, and no reading or group the other does not have, so that what the machine's words need to be writable suffices), composed with C65 per chapter; induction over chapters |
| C82 | programs of C calls over files and a heap (`Spec/CLife.lean`: `Runs`) against the words the machine remembers (`Remembers`) | C80 on a ghost context without files, carried over to the real one by `step_twin` (calls which do not save do the same to contexts with `Held` dictionaries), files as in C81; induction over calls and programs |
| C83 | what a user of the machine has to mind (`Spec/Careful.lean`) | an invariant of the machine's desk (`Good`: all words of all dictionaries and all shown candidates are plain) kept by every act; then C81 and C82 without their `Writable` hypothesis |
| C84 | the file of a dictionary with okuri-ari readings which do not end with a letter, read again (`Spec/Strays.lean`: `refiled`) | induction over the lines of the file with the state of the reader (`load_any`), then `find` in both maps; witness with the engine (`careless_seen`) |
| C85 | several contexts with a shelf of shared dictionaries and their files (`Model/WorldFiles.lean`), days and saves (`Spec/Years.lean`) | C79 on a ghost world without files; the real world's dictionaries hold the same words (`Held`) and are in step with their files (`Shelved`), kept by every call, save and reload of any context; induction over events and days; with careful users (`Spec/CarefulYears.lean`) the invariant of C83 holds at every seat |
| C86 | the reader of TOML texts as two automata, of symbols and of statements (`Model/TomlText.lean`), against a grammar (`Spec/TomlText.lean`); the shipped files verbatim (`Model/TomlFiles.lean`) | for each state of the automata, what the rest of the text has to be; each step sound and complete for it; grouping into tables and sections by induction; then C60; the shipped files computed by the kernel |
| C87 | the list of rules as a sorted map filled from the tables of the metadata text (`Model/RuleList.lean`); `setRule` of C60, `getRules` of the C memory | what the reader takes from each table, by induction over the tables; the sorted map has the same entries; then C86 and the C array theorem |
| C88 | the reader of `encoding_rs_io` with byte order marks, as an encoding of dictionaries (`Codec`) and in front of the labels of C66 (`Model/Bom.lean`) | removing a prefix; a saved text begins with `;`, whose code is no first byte of a mark; then C54 and C66 |
| C89 | `CskkContext::new` from the bytes of the files (`Model/Boot.lean`) on the same file system as the dictionaries; programs one after the other (`Spec/Boot.lean`) | C86 for the bytes, C65 for the files which are not touched; so every such life is one of C82 |
| C90 | the form files from their bytes (`Model/TomlText.lean`, `Model/Boot.lean`) against what their texts say (`Spec/FormFile.lean`) | the document of the text by C86; each name once, so the first found is the only one; then C23 and C24 |
| C91 | both searches for files, of the crate `xdg` and of `env.rs`, from the variables of the environment (`Model/Xdg.lean`), against the directories of the specification (`Spec/Xdg.lean`) | paths up to repeated slashes; both searches are the first hit in lists of the same places; saves touch no path which is looked at, so each program finds what the first found; then C89 |
| C92 | the shipped tables as read from the rule files (C63), the typing of C25 | per table a kernel computation over its entries (no key before the last is a command, a capital or a punctuation key; the entry is found; no longer entry begins with it) is combined with the theorems of C25, which hold for every context |
| C93 | what one may want to write, without keys (`Spec/Wishes.lean`); the texts of C71 | a kernel computation finds keys for each of the 87 kana in each table; by induction over the reading they spell it; induction over the wishes: kana and Latin passages are passages of C71; words are typed after the key that opens an empty reading (`Props/Openings.lean`) or after `/` (`Props/Shortened.lean`), confirmed with Ctrl-j; `Props/Vowels.lean` is the same with a capital letter first |
| C94 | the machine of C75; what may be wanted as in C93 | Ctrl-j leaves every phase of the machine with the text kept; Ctrl with the kana key drops pending keys; `l` and Ctrl-j lead to hiragana; induction over the open registrations; the refinement of C75 carries it to the engine, C93 does the rest (`Props/WayBack.lean`) |

## Trusted base

* Lean 4.33.0's kernel. No Mathlib module is imported; only Lean core and its standard library.
* Axioms: at most `propext`, `Classical.choice`, `Quot.sound`, per theorem in `AXIOMS.md` (made by `tools/axioms.py` from
  `#print axioms`). No axioms of our own, no compiled evaluation; concrete cases are evaluated by the kernel (`decide`).
* Our reading of the Rust code, function by function. Against mistakes in it, `tools/cites.py` checks every citation of lines of /repo in the model against the names found there, and `tools/conformance.py` translates the
  repository's own tests (`/repo/tests/*.rs`: 132 test functions, 412 key/assert steps) into Lean evaluations of the model
  with the shipped rule and dictionary files; all steps agree. This is a test of the model, not part of any proof.
* The generated tables: the verbatim lines of the `.toml` files in `Model/TomlFiles.lean` and the names of keysyms in `Model/Assets.lean`. The tables of the
  rules and forms in `Model/Assets.lean`, `Model/DefaultRule.lean` and `Model/RuleTexts.lean` are generated too, but C60 and C86 prove that the texts of the files give them.

## What is modelled

| code | model |
|------|-------|
| `candidate_list.rs` | `Model/CandidateList.lean` (all) |
| `dictionary/lru_ordered_map.rs` | `Model/LruMap.lean`: nodes on a heap, raw pointers as addresses (all methods but the iterators' laziness) |
| `form_changer/numeric_form_changer.rs`, numeric part of `dictionary/mod.rs` | `Model/Numeric.lean` |
| `form_changer/{ascii,kana}_form_changer.rs` | `Model/Forms.lean` (from the tables on), `Model/TomlText.lean` (from the text to the tables) |
| `keyevent.rs` | `Model/KeyEvent.lean` |
| `skk_modes.rs`, `command_handler/*` | `Model/Modes.lean`, `Model/Command.lean` |
| `kana_builder.rs`, `rule.rs` (tables) | `Model/Romaji.lean`; the trie as prefix queries over the table |
| `dictionary/{candidate,composite_key,dictionary_candidate,dictentry}.rs` | `Model/Candidate.lean`, `Model/DictEntry.lean` |
| `dictionary/dictionary_parser.rs` | `Model/DictParser.lean`, `Model/LispFun.lean` |
| `dictionary/{file_dictionary,static_dict,user_dictionary,empty_dict}.rs` | `Model/DictFile.lean`: loading, saving as a list of file-system steps with crash points |
| `dictionary/mod.rs` | `Model/Dictionary.lean` |
| `cskkstate.rs` | `Model/State.lean` (all) |
| `lib.rs`, `config.rs` | `Model/Context.lean` (all of the context but rule loading) |
| `capi.rs` | `Model/CApi.lean`: strings as cells of a heap, candidate window, preedit detail, release functions |
| contexts sharing dictionaries | `Model/World.lean`: several contexts, key events in any order; `Model/Locks.lean`: threads, one critical section at a time; `Model/Disk.lean`: threads that also save and reload, in the steps of the operating system |
| saves and reloads of contexts with shared dictionaries (lib.rs:731-765) | `Model/WorldFiles.lean` |
| `capi.rs` (rules array) | `Model/CRules.lean`: `Vec` capacity, `skk_get_rules`, `skk_free_rules` |
| `capi.rs` (sessions) | `Model/CSession.lean`: every function of the C API on a context as one step over context, files and C strings; `process_key_events_string`, keywords, rule names, underline |
| `rule.rs`, `env.rs`, rule part of `lib.rs` | `Model/RuleLoad.lean`: search path, metadata, switching rules |
| `rule.rs` (command tables), `instruction.rs`, `skk_modes.rs` | `Model/RuleText.lean`: reading instruction texts and command tables; `Model/RuleTexts.lean` (generated by `tools/genruletext.py`): the two shipped files |
| crate `toml`, as `rule.rs`, `ascii_form_changer.rs` and `kana_form_changer.rs` use it | `Model/TomlText.lean`: tables, texts and arrays of texts, comments; other files are outside. `Model/TomlFiles.lean` (generated by `tools/gentoml.py`): the five `.toml` files of /repo/assets, verbatim |
| `lib.rs` `new`, `new_with_empty_fallback`; `default_ascii_form_changer`, `default_kanaform_changer` | `Model/Boot.lean`: from the bytes of all files; where the files are found is a parameter, which `Model/Xdg.lean` computes from the environment (the crate `xdg` 2.5.2 after its documentation) |
| UTF-8 (`encoding_rs`) | `Model/Utf8.lean` |
| `capi.rs` (objects) | `Model/Handles.lean`: handles of dictionaries, contexts and key events, reference counts |
| `dictionary/user_dictionary.rs` (`save_dictionary` with failures) | `Model/SaveFaults.lean`: every outcome of rename, create, write and flush; restarts |
| `lib.rs` `save_dictionary`, `reload_dictionary`; `dictionary/mod.rs` constructors | `Model/Session.lean`: all dictionaries of a context, in the order of the list, over one file system |
| `encoding_rs` labels in `file_dictionary.rs`, `user_dictionary.rs` | `Model/Label.lean`: the table of labels is a parameter; UTF-8 and UTF-16LE are modelled, other encodings are `Codec`s; byte order marks in `Model/Bom.lean` |
| `encoding_rs` EUC-JP | `Model/EucJp.lean`: encoder and decoder; the JIS tables are parameters |

## What is not modelled

* Text encodings other than UTF-8: `Codec` is a parameter (encode/decode as partial functions); theorems that need it assume that
  decoding inverts encoding. UTF-8 is concrete (`Model/Utf8.lean`, with the byte order mark in `Model/Bom.lean`), and so is EUC-JP (`Model/EucJp.lean`) but for the
  JIS tables; that decoding inverts encoding is proved for both (for EUC-JP up to three characters, C67). `BufWriter`: every division of the
  output into write calls is covered, because crash points are arbitrary.
* The scheduler inside `Mutex` (fairness): `Model/Locks.lean` covers every interleaving of critical sections.
* TOML beyond the part which the shipped files use (`Model/TomlText.lean` lists it). The crate `toml` itself: the model follows TOML 1.0.
* Logging; allocation failure; strings or lists longer than the address space; `len as i32` in `select_candidate_at` is exact.
* The `Vec` reconstruction in `skk_free_preedit_detail` (for `skk_free_rules` see C51); invalid pointers passed by the caller; invalid UTF-8 from C.
* The in-memory order of `HashMap`s is never observable in the modelled code.

## Findings: where the code does not do what one would expect

Each is a theorem in the model (names under `Cskk.Props`).

* Registration: a word registered for a reading with okurigana, or after an auto-start mark, is never found again
  (`Register.okurigana_registration_not_found`, `punctuation_registration_not_found`).
* Registering a word with marker `#4` whose number has no entry commits nothing and leaves the cursor behind the list
  (`Cursor.relookup_registration_breaks_cursor`).
* Reset while the outermost level is registering leaves a context that ignores character keys for ever (`Levels.stuck_forever`).
* Backspace, purge and reset erase committed text that was not polled yet (`Output`, `Levels`).
* Deleting okurigana makes the lookup differ from the reading shown (`Reading.deleting_okurigana_changes_lookup`); a word can so be registered for the empty
  reading, which no file can hold (`Reading.empty_reading_registered`: `OTt`, BackSpace, BackSpace, space).
* `will_process` and `process_key_event` disagree in romaji modes (`WillProcess.disagreements`).
* `confirm_candidate_at` in ▽ mode loses the word (`Confirm.confirm_in_precomposition_loses_word`).
* Numbers of 2⁶⁴ and more, and digits outside ASCII, panic in `#3`/`#5` (`Numeric.huge_number_panics`,
  `fullwidth_digit_panics`). `#8` counts bytes: "１２３４" becomes "１２３,４" and "１２３" becomes "１２３," (`Numeric.thousand_wide_digits`).
* The reverse iterator of the LRU map is wrong (`Lru.iter_rev_wrong`).
* A second save after a crash loses the backup (`DictSave.second_save_loses_backup`).
* Adjacent separators and backslashes of words are lost by the dictionary format (`DictFile`).
* C API: the heading of a completion leaks (`CApi.completion_detail_leaks`); output with a NUL is lost (`CApi.c_poll`).
* C API: the array of rules is released with a wrong capacity, NULL is not tested (`CRules.shipped_rules_wrong_layout`, `CRules.free_null_rules`).
* Candidate lists are not refreshed when another context purges (`World.confirming_stale_word_restores_it`).
* Lookups over several dictionaries are not atomic (`Locks.torn_lookup`).
* An XDG variable set to the empty text is not treated as unset (`RuleLoad.empty_variable_hides_home`), but by the crate which looks for the rules it is: rules and forms of one user are
  looked for in different directories (`Xdg.empty_variable_splits`). An empty directory `libcskk/rules` of a user hides the rules of the system (`Xdg.empty_directory_hides`).
* Words confirmed are swapped to the front, not moved (`UserDict.confirm_is_a_swap`); annotated copies in later dictionaries
  reorder words (`Candidates.annotation_moves_word`).

* `dictionaries_from_c_repr` tests the first element of the array for NULL, not the array (`is_null` looks through the reference): a context made
  with an array whose first dictionary could not be loaded silently uses none of the others (`first_null_drops_all`); NULL elsewhere in the array is
  undefined behaviour (`later_null_fails`).
* `skk_context_get_preedit_detail` hands out the buffer of a collected `Vec` after `set_len(len)`, which does not change the capacity;
  `skk_free_preedit_detail` releases it with capacity = length. With the in-place collection of recent standard libraries the capacities differ (not modelled).
* A user dictionary file that has disappeared is never written again: `save_dictionary` begins with a rename of the old file, so
  every later save fails (`missing_file_never_saved`). A save whose `File::create` fails brings this state about
  (`create_failure_loses_file`), and two failed writes in a row destroy the file and its backup (`two_failures_lose_both`).
* Mode keys (C58): Ctrl-q in katakana input commits a pending `n` as hiragana; Ctrl-q while a reading is typed drops pending keys; `q` and
  Ctrl-j while okurigana is typed drop the okurigana; `Q` and `/` leave keys pending (`kan/x` shows `▽xn`).
* Text committed inside a registration is not shown while a nested registration is open (`waiting_hides_committed`, C59).
* An instruction text of a rule file may have anything around `name(mode)`: the regular expression is not anchored
  (`RuleFile.surplus_accepted`). A key text starting with a kana panics (`RuleFiles.kana_key_panics`). The section for okurigana
  is misspelt in the code; one with the correct name is ignored without a message (`sample` in `Props/RuleFiles.lean`).
* A semicolon inside an annotation makes the whole line disappear (`DictGrammar.semicolon_in_annotation_loses_line`); the line
  parser tolerates parts in other orders (`tolerated_lines`, `tolerated_orders`).
* With the default rule `l`, `/`, `L` and `Q` typed while a candidate is shown are committed as characters (`TypeOn.mode_keys_typed`); pending
  consonants survive a conversion invisibly (`TypeOn.pending_goes_on`, C63).
* A file of character forms which is found but cannot be read as such leaves even `new_with_empty_fallback`, meant for programs which cannot fail gracefully, without a
  context: `expect` panics (`FormFile.broken_forms`, C90).
* The AZIK rule has no key that starts a completion (`CompletionCycle.azik_never_completes`, C64).
* Ctrl-g directly after purging a word with `X` shows `▼エラー`: the mode history still says that a candidate was chosen
  (`WordCycle.cancel_after_purge`).

* A user dictionary whose file could not be created again after it was moved to its backup (disk full, directory not writable) is never saved any more in that process: every later save starts with the rename, which fails (`Session.lost_file_never_saved`, C65).
* Two user dictionaries on the same file, or one whose file is the other's `.BAK`, overwrite each other silently (`Session.shared_file_last_wins`, `file_is_a_backup`, C65).

* A user dictionary opened with a label `encoding_rs` does not know (`utf-8-unix`, `eucjp`, `euc-jis-2004`, …) opens without an error; the first save panics (`expect`) after emptying the file, and the second session's save overwrites the backup with the empty file: all words are lost (`Label.unknown_label_destroys`, C66). A static one silently drops every line that is not UTF-8.
* A user dictionary opened with a UTF-16 label is saved as UTF-8 (`new_encoder` uses the output encoding) and empty when opened again (`Label.utf16_save_loses_all`, C66). `Codec.round` therefore excludes UTF-16. UTF-8 meets it (`Utf8.utf8`), EUC-JP for texts without ¥, ‾ and − (`EucJp.codec`, C67), which come back as other characters.

* `skk_context_process_key_events` aborts the process on a text that is no key list (`unwrap`), and otherwise returns true even if no key was taken; `skk_context_get_preedit_underline` always answers (0, 0); a NULL first keyword of `skk_context_set_auto_start_henkan_keywords` switches all keywords off and a later NULL is dereferenced (C68).

* BackSpace removes a pending capital letter but not the flag `capital_transition`, so the next capital letter starts no word or okurigana: `K BackSpace BackSpace A` commits あ (`Stale.corrected_start`, C69).

* Ctrl-g after leaving the list of words (`x`) goes back to a list which is empty by then (▼エラー); the next letter goes to the application and a blank
  stops a checked build. Ctrl-g also goes back from Ascii mode to a reading without its kana mode, where letters go to the application (C72,
  `cancelled_list`, `cancelled_list_stops`, `cancelled_mode`).

* BackSpace in a registration whose text is still empty is handed back to the program, which deletes the last character of its own text, behind the
  registration on the screen (C74, `registration_leaks`).
- The AZIK rule binds the opening of an empty reading to `{` without SHIFT. A keyboard on which `{` needs SHIFT sends it with SHIFT, and then the key is typed
  instead (`ShiftKey.azik_brace`); only for A–Z is SHIFT ignored when commands are looked up (`ShiftKey.shifted_letter`, `shifted_sign`).
* In `(concat "…")` an octal number that is not closed swallows the backslash of the number behind it: `\057\057` is read as `/057` (`Concat.unclosed_numbers`).

* Dictionaries opened two times on one file have two mutexes; saves at the same time can leave neither the file nor the backup complete (`Disk.torn`).
* Keys that are pending when a word is asked for (`Kak`, space) are invisible while the word is shown, but not gone: the next letter is first looked up together with them, so `Kak`, space, `a` writes 化か, while `Kas`, Tab, `hi` writes 化ひ and not 化し (`leftovers_seen`; `typeOn` in `Spec/Machine.lean` says when which happens).

* Ctrl-g in direct input is not idle: after a reading or an abbreviation was written with Ctrl-j the mode history still ends in the reading, and Ctrl-g opens a new, empty reading `▽` behind the written text, also after a poll (`Machine.given_up_seen`).

* With the default rule, Ctrl-q in katakana input while a lone `n` is pending writes a hiragana `ん` (`Machine.lone_n_aside`).
* A word registered for a reading with okurigana is stored under the reading without the letter (`おく`, not `おくr`), and is never found with okurigana; after a restart it appears for `おく` without okurigana, or is gone if there were such words (C84, `careless_seen`).
* AZIK's entries `"nl"` and `"ch"` name single keysyms (XKB has keys `nl` and `ch`), so the sequences `n l` and `c h` are not in the table: `c h` forgets the `c`, `n l` changes to ascii input (C92). The comment in the default rule warns of these names; AZIK's file needs `"n l"` and `"c h"`.

## Tests of the theorems

`seeded/LOG.jsonl` lists the wrong programs tried: each is an edit of the model in a scratch copy, with the theorems that no
longer build.
