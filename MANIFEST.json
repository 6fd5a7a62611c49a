{
 "claims": [
  {
   "property": "C01",
   "status": "proved",
   "theorems": [
    "Gdx.Props.C01_roundtrip",
    "Gdx.Props.C01_session",
    "Gdx.Props.C01_acronym",
    "Gdx.Props.C01_block",
    "Gdx.Props.C01_initial_key_lost",
    "Gdx.Props.C01_negative_key_shifted"
   ],
   "note": "Whole API histories: any history before, any calls after, closing, opening by any object. Key entries outside 0..2^31-257 are shown to be excluded."
  },
  {
   "property": "C02",
   "status": "proved",
   "theorems": [
    "Gdx.Props.C02_session",
    "Gdx.Props.sorted_exact"
   ],
   "note": "Any history before; an element renamed while the symbol is written breaks it: C02_rename."
  },
  {
   "property": "C03",
   "status": "proved",
   "theorems": [
    "Gdx.Props.C03_session",
    "Gdx.Props.sorted_exact"
   ],
   "note": "Any history before."
  },
  {
   "property": "C04",
   "status": "proved",
   "theorems": [
    "Gdx.Props.C04_special",
    "Gdx.Props.C04_small",
    "Gdx.Props.C04_negZero",
    "Gdx.Props.C04_nan",
    "Gdx.Props.C04_inf",
    "Gdx.Props.C04_finite",
    "Gdx.Props.C04_bytes"
   ],
   "note": ""
  },
  {
   "property": "C05",
   "status": "proved",
   "theorems": [
    "Gdx.Props.C05_set",
    "Gdx.Props.C05_map",
    "Gdx.Props.C05_always"
   ],
   "note": ""
  },
  {
   "property": "C06",
   "status": "proved",
   "theorems": [
    "Gdx.Props.C06_reopen",
    "Gdx.Props.C06_own"
   ],
   "note": "All call histories; counts must fit into the fields of the file and closing must not run into undefined behaviour (comment > 255 bytes); compression enters through the round trip of C20 (Cz.Good). Unnamed acronyms come back as UnknownACRO<n>. The records themselves: C01/C49."
  },
  {
   "property": "C07",
   "status": "partial",
   "theorems": [
    "Gdx.Props.C07_before_close",
    "Gdx.Props.C07_closing_partial",
    "Gdx.Props.C07_window",
    "Gdx.Props.C07_next"
   ],
   "note": "Proved for every history and every crash point up to the index mark; violated while the six positions behind the mark are being written (C07_window: relaxed domains lost, C07_next: appending overwrites the header). What is read past the end of a file that breaks off inside the header is undefined; in no case it is opened."
  },
  {
   "property": "C08",
   "status": "partial",
   "theorems": [
    "Gdx.Props.C08_bytes_partial",
    "Gdx.Props.C08_data_partial",
    "Gdx.Props.C08_tables"
   ],
   "note": "Violated: the appended data overwrite the tables (C08_tables). What is proved: for every history and crash point nothing in front of NextWritePosition but the index changes, so the records of old symbols stay in place."
  },
  {
   "property": "C09",
   "status": "partial",
   "theorems": [
    "Gdx.Props.C09_writing_partial",
    "Gdx.Props.C09_elements",
    "Gdx.Props.C09_reading_partial",
    "Gdx.Props.C09_start_partial",
    "Gdx.Props.C09_read_partial",
    "Gdx.Props.C09_open",
    "Gdx.Props.C09_start",
    "Gdx.Props.C09_lost",
    "Gdx.Props.C09_done_lost",
    "Gdx.Props.C09_done_closed",
    "Gdx.Props.C09_fast"
   ],
   "note": "Proved for every call that checks the mode first (all of them but the Start functions, gdxDataReadDone and the callback readers): nothing changes but the error register. Refused Start calls drop the sort list, the error list and the current symbol (C09_start: undefined behaviour later) or leave the writing mode (C09_lost, C09_done_lost: file lost; C09_done_closed: object unusable); the callback readers ignore the refusal (C09_fast)."
  },
  {
   "property": "C10",
   "status": "partial",
   "theorems": [
    "Gdx.Props.C10_first_error",
    "Gdx.Props.C10_first_error_fresh",
    "Gdx.Props.C10_counter",
    "Gdx.Props.C10_open_write",
    "Gdx.Props.C10_reset_counterexample",
    "Gdx.Props.C10_failed_open_counterexample"
   ],
   "note": "Holds between two openings; opening resets the counter and a failed opening sets the last error without counting it (shown)."
  },
  {
   "property": "C11",
   "status": "proved",
   "theorems": [
    "Gdx.Props.C11_unique",
    "Gdx.Props.C11_legal",
    "Gdx.Props.C11_numbers",
    "Gdx.Props.C11_find_get",
    "Gdx.Props.C11_get_find",
    "Gdx.Props.C11_stable"
   ],
   "note": "For opened files the distinctness of the stored elements is a hypothesis about the file."
  },
  {
   "property": "C12",
   "status": "partial",
   "theorems": [
    "Gdx.Props.C12_correspond_state",
    "Gdx.Props.C12_history_partial",
    "Gdx.Props.C12_correspond_partial",
    "Gdx.Props.C12_register_fresh",
    "Gdx.Props.C12_register_again",
    "Gdx.Props.C12_register_conflict",
    "Gdx.Props.C12_counterexample"
   ],
   "note": "gdxUELRegisterMap accepts a used user index for another string (shown); proved for histories without that."
  },
  {
   "property": "C13",
   "status": "proved",
   "theorems": [
    "Gdx.Props.C13_next",
    "Gdx.Props.C13_again",
    "Gdx.Props.C13_highest"
   ],
   "note": ""
  },
  {
   "property": "C14",
   "status": "proved",
   "theorems": [
    "Gdx.Props.C14_ident",
    "Gdx.Props.C14_accept",
    "Gdx.Props.C14_defined",
    "Gdx.Props.C14_found",
    "Gdx.Props.C14_distinct",
    "Gdx.Props.C14_stable"
   ],
   "note": "Over all call histories of the modelled API; symbol tables of opened files enter by the hypothesis that the file gives a correct table (own files: see C06)."
  },
  {
   "property": "C15",
   "status": "proved",
   "theorems": [
    "Gdx.Props.C15_lookup",
    "Gdx.Props.C15_add",
    "Gdx.Props.C15_duplicates",
    "Gdx.Props.C15_rename_zero_based",
    "Gdx.Props.C15_list_view"
   ],
   "note": "C15_lookup covers all operation histories; RenameEntry is wrong for 0-based lists (never used by gdx) and this is shown separately."
  },
  {
   "property": "C16",
   "status": "proved",
   "theorems": [
    "Gdx.Props.C16_sort",
    "Gdx.Props.C16_shortcut",
    "Gdx.Props.C16_add_after_sort"
   ],
   "note": ""
  },
  {
   "property": "C17",
   "status": "proved",
   "theorems": [
    "Gdx.Props.C17_mapping",
    "Gdx.Props.C17_one",
    "Gdx.Props.C17_negative"
   ],
   "note": ""
  },
  {
   "property": "C18",
   "status": "partial",
   "theorems": [
    "Gdx.Props.C18_set_partial",
    "Gdx.Props.C18_clear_clears_neighbour",
    "Gdx.Props.C18_limit"
   ],
   "note": "The code violates the property when bits are cleared (the whole byte is cleared); proved for histories of setting only (the only use in gdx)."
  },
  {
   "property": "C19",
   "status": "proved",
   "theorems": [
    "Gdx.Props.C19_transparent"
   ],
   "note": "Without compression and password; arbitrary buffer size."
  },
  {
   "property": "C20",
   "status": "proved",
   "theorems": [
    "Gdx.Props.C20_roundtrip",
    "Gdx.Props.C20_order_matters"
   ],
   "note": "zlib is a parameter with the law uncompress (compress x) = x for pieces up to the buffer size."
  },
  {
   "property": "C21",
   "status": "proved",
   "theorems": [
    "Gdx.Props.C21_header",
    "Gdx.Props.C21_value",
    "Gdx.Props.C21_reject",
    "Gdx.Props.C21_stream"
   ],
   "note": ""
  },
  {
   "property": "C22",
   "status": "partial",
   "theorems": [
    "Gdx.Props.C22_filtered_partial",
    "Gdx.Props.C22_mapped_partial",
    "Gdx.Props.C22_universe_partial",
    "Gdx.Props.C22_filter",
    "Gdx.Props.C22_mixed",
    "Gdx.Props.C22_fresh",
    "Gdx.Props.C22_beyond"
   ],
   "note": "For registered elements and histories without a user number given twice. Wrong for callers who give a new key array to each call (C22_fresh), and undefined behaviour for raw-written element numbers beyond the table (C22_beyond). With expanding and strict positions mixed, admission is decided record by record (C22_mixed)."
  },
  {
   "property": "C23",
   "status": "partial",
   "theorems": [
    "Gdx.Props.C23_history_partial",
    "Gdx.Props.C23_reuse"
   ],
   "note": "Violated when a user number is given to a second element (C23_reuse); proved for all other histories, for registered elements."
  },
  {
   "property": "C24",
   "status": "partial",
   "theorems": [
    "Gdx.Props.C24_raw_partial",
    "Gdx.Props.C22_filtered_partial",
    "Gdx.Props.C22_mapped_partial",
    "Gdx.Props.C24_universe_stale"
   ],
   "note": "Raw, string and mapped readers of symbols; violated by the mapped reader for the universe (C24_universe_stale)."
  },
  {
   "property": "C25",
   "status": "partial",
   "theorems": [
    "Gdx.Props.C25_raw",
    "Gdx.Props.C02_session",
    "Gdx.Props.C03_session",
    "Gdx.Props.C25_exact",
    "Gdx.Props.inside_iff",
    "Gdx.Props.mark_get",
    "Gdx.Props.recorded"
   ],
   "note": "Domains are sets (or direct aliases) written in the same session while domain sets are stored. False otherwise when bogus domains are allowed: C25_append_counterexample, C25_off_counterexample. The error list leaves out repeated violations: C44_counterexample."
  },
  {
   "property": "C26",
   "status": "partial",
   "theorems": [
    "Gdx.Props.C26_relaxed",
    "Gdx.Props.C26_real",
    "Gdx.Props.C26_new",
    "Gdx.Props.C26_stable",
    "Gdx.Props.C26_both",
    "Gdx.Props.C26_relaxed_only",
    "Gdx.Props.C26_reopen",
    "Gdx.Props.C26_spelling",
    "Gdx.Props.C26_refused",
    "Gdx.Props.C26_scalar"
   ],
   "note": "Violated to the letter: relaxed names come back in the first spelling used or as * when no identifier, refused real names as *, scalars ignore gdxSymbolSetDomainX (counterexamples). With these exceptions proved for every history; reopening for files closed in the idle write mode."
  },
  {
   "property": "C27",
   "status": "proved",
   "theorems": [
    "Gdx.Props.C27_start",
    "Gdx.Props.C27_slice",
    "Gdx.Props.C27_uels",
    "Gdx.Props.C27_back",
    "Gdx.Props.C27_loaded"
   ],
   "note": "For symbol numbers that name readable data (others are C42), strings that fit the 64-byte buffers and, for the strings, keys that are registered elements."
  },
  {
   "property": "C28",
   "status": "proved",
   "theorems": [
    "Gdx.Props.C28_count",
    "Gdx.Props.C28_callback",
    "Gdx.Props.C28_loaded"
   ],
   "note": "For keys that are registered elements (a raw record may hold other numbers)."
  },
  {
   "property": "C29",
   "status": "proved",
   "theorems": [
    "Gdx.Props.C29_symbols",
    "Gdx.Props.C29_elements",
    "Gdx.Props.C29_positions",
    "Gdx.Props.C29_scalar",
    "Gdx.Props.C29_loaded"
   ],
   "note": "With a file open; the position query for every symbol whose record loop succeeds."
  },
  {
   "property": "C30",
   "status": "proved",
   "theorems": [
    "Gdx.Props.C30_accept",
    "Gdx.Props.C30_ends",
    "Gdx.Props.C30_read"
   ],
   "note": "Opened files enter by hypothesis (a corrupt file may contain an alias cycle)."
  },
  {
   "property": "C31",
   "status": "partial",
   "theorems": [
    "Gdx.Props.C31_inverse_partial",
    "Gdx.Props.C31_overflow",
    "Gdx.Props.C31_below",
    "Gdx.Props.C31_nan"
   ],
   "note": "Holds for indices up to 17976931; from 17976932 on the product overflows to infinity and the code violates the property (shown)."
  },
  {
   "property": "C32",
   "status": "partial",
   "theorems": [
    "Gdx.Props.C32_unique",
    "Gdx.Props.C32_add",
    "Gdx.Props.C32_write",
    "Gdx.Props.C32_same",
    "Gdx.Props.C32_fresh",
    "Gdx.Props.C32_start",
    "Gdx.Props.C32_reopen_partial",
    "Gdx.Props.C32_clash",
    "Gdx.Props.C32_collision",
    "Gdx.Props.C32_changed"
   ],
   "note": "Table part proved for every history. Reading: consistent and fresh as long as no gdxAcronymSetInfo, gdxAcronymNextNr (fresh: gdxAcronymAdd) comes in between; counterexamples show that these calls can give two acronyms one number or change a number. Unnamed acronyms may clash with named ones after reopening (C32_clash)."
  },
  {
   "property": "C33",
   "status": "proved",
   "theorems": [
    "Gdx.Props.C33_number",
    "Gdx.Props.C33_accept",
    "Gdx.Props.C33_stable",
    "Gdx.Props.C33_same",
    "Gdx.Props.C33_table",
    "Gdx.Props.C33_reopen",
    "Gdx.Props.C33_repeated",
    "Gdx.Props.C33_translate"
   ],
   "note": "Reopening for files closed in the idle write mode. Files of other programs that repeat texts: C33_repeated, C33_translate."
  },
  {
   "property": "C34",
   "status": "proved",
   "theorems": [
    "Gdx.Props.C34_keeps",
    "Gdx.Props.C34_legal",
    "Gdx.Props.C34_unchanged",
    "Gdx.Props.C34_idempotent"
   ],
   "note": ""
  },
  {
   "property": "C35",
   "status": "partial",
   "theorems": [
    "Gdx.Props.C35_add",
    "Gdx.Props.C35_get",
    "Gdx.Props.C35_stable",
    "Gdx.Props.C35_only",
    "Gdx.Props.C35_reopen",
    "Gdx.Props.C35_long"
   ],
   "note": "Comments longer than 255 bytes violate the property (C35_long); otherwise proved for every history; reopening for files closed in the idle write mode."
  },
  {
   "property": "C36",
   "status": "partial",
   "theorems": [
    "Gdx.Props.C36_fastEx",
    "Gdx.Props.C36_fast",
    "Gdx.Props.C36_filt_partial",
    "Gdx.Props.C36_loaded",
    "Gdx.Props.C36_filt_counterexample"
   ],
   "note": "gdxDataReadRawFast and gdxDataReadRawFastEx are proved in full; gdxDataReadRawFastFilt for fewer than twenty fixed positions (with twenty the assertion in the code fails, proved)."
  },
  {
   "property": "C37",
   "status": "partial",
   "theorems": [
    "Gdx.Props.C37_scalar_partial",
    "Gdx.Props.C37_mapped_partial",
    "Gdx.Props.C37_counterexample",
    "Gdx.Props.C37_mapped_stale"
   ],
   "note": "Fails when several records are written for a scalar, and by the mapped reader after an unfinished or sorted mapped read (shown); otherwise proved for all readers."
  },
  {
   "property": "C38",
   "status": "partial",
   "theorems": [
    "Gdx.Props.C38_items",
    "Gdx.Props.C38_excluded",
    "Gdx.Props.C38_gmsDouble_partial",
    "Gdx.Props.C38_gmsDouble_lossy"
   ],
   "note": "Round trip for all items; GmsDouble loses the lowest bits (shown), strings longer than 255 bytes and INT_MIN are shown to be excluded."
  },
  {
   "property": "C39",
   "status": "partial",
   "theorems": [
    "Gdx.Props.C39_transparent_partial",
    "Gdx.Props.C39_roundtrip_partial",
    "Gdx.Props.C39_large_offset",
    "Gdx.Props.C39_one_byte_password"
   ],
   "note": "For offsets below 2^31; beyond, the code indexes out of bounds (shown)."
  },
  {
   "property": "C40",
   "status": "proved",
   "theorems": [
    "Gdx.Props.C40_rename",
    "Gdx.Props.C40_found"
   ],
   "note": ""
  },
  {
   "property": "C41",
   "status": "proved",
   "theorems": [
    "Gdx.Props.C41_opening",
    "Gdx.Props.C41_nofile",
    "Gdx.Props.C41_busy"
   ],
   "note": "Files of a machine with the other byte order are outside of the model."
  },
  {
   "property": "C42",
   "status": "partial",
   "theorems": [
    "Gdx.Props.C42_partial",
    "Gdx.Props.C42_symbols",
    "Gdx.Props.C42_symbols_in",
    "Gdx.Props.C42_domains",
    "Gdx.Props.C42_domains_in",
    "Gdx.Props.C42_comments",
    "Gdx.Props.C42_elements",
    "Gdx.Props.C42_user",
    "Gdx.Props.C42_user_high",
    "Gdx.Props.C42_texts",
    "Gdx.Props.C42_acronyms",
    "Gdx.Props.C42_errors",
    "Gdx.Props.C42_errors_in",
    "Gdx.Props.C42_acronym_counterexample",
    "Gdx.Props.C42_acronym_unchecked",
    "Gdx.Props.C42_closed_counterexample",
    "Gdx.Props.C42_acronym_name_counterexample",
    "Gdx.Props.C42_reader_counterexample"
   ],
   "note": "gdxAcronymSetInfo and gdxAcronymGetMapping have no effective range check (proved: undefined for every number out of range); with nothing open the domain and acronym queries use a null pointer; the callback readers do not check the symbol number. Everything else is proved for every state."
  },
  {
   "property": "C43",
   "status": "proved",
   "theorems": [
    "Gdx.Props.C43_universe"
   ],
   "note": ""
  },
  {
   "property": "C44",
   "status": "partial",
   "theorems": [
    "Gdx.Props.C51_session",
    "Gdx.Props.C25_raw",
    "Gdx.Props.C02_session",
    "Gdx.Props.C03_session",
    "Gdx.Props.C44_list_partial"
   ],
   "note": "All modes. With domain violations the list can be shorter: C44_counterexample."
  },
  {
   "property": "C45",
   "status": "partial",
   "theorems": [
    "Gdx.Props.C45_append_partial",
    "Gdx.Props.C45_content_partial",
    "Gdx.Props.C45_kept",
    "Gdx.Props.C45_userNrs_counterexample",
    "Gdx.Props.C45_special_counterexample",
    "Gdx.Props.C45_errors_counterexample",
    "Gdx.Props.C45_comment_counterexample",
    "Gdx.Props.C45_acronym_counterexample",
    "Gdx.Props.C45_domain_counterexample"
   ],
   "note": "Symbols already present are never changed (C45_kept, any number of appending sessions). One session and two sessions give the same tables and records, except for what is not in the file (user numbers, special values, error counts, current symbol, unnamed acronyms, domain checks), for each of which the difference is shown."
  },
  {
   "property": "C46",
   "status": "proved",
   "theorems": [
    "Gdx.Props.C46_trim",
    "Gdx.Props.C46_trailing",
    "Gdx.Props.C46_leading",
    "Gdx.Props.C46_accept"
   ],
   "note": ""
  },
  {
   "property": "C47",
   "status": "partial",
   "theorems": [
    "Gdx.Props.C47_close_partial",
    "Gdx.Props.C47_counterexample",
    "Gdx.Props.C47_counterexample_register"
   ],
   "note": "Directly after a Start call (and while registering elements) gdxClose writes nothing: the property fails there (shown)."
  },
  {
   "property": "C48",
   "status": "partial",
   "theorems": [
    "Gdx.Props.C48_idle",
    "Gdx.Props.C48_write_partial",
    "Gdx.Props.C48_read_partial",
    "Gdx.Props.C48_append_partial",
    "Gdx.Props.C48_dangling",
    "Gdx.Props.C48_count",
    "Gdx.Props.C48_universe",
    "Gdx.Props.C48_same_partial",
    "Gdx.Props.C48_settings_counterexample"
   ],
   "note": "gdxClose on an object that is not open does nothing and returns 1; what an object holds of a file after opening it equals what a new object would hold, whatever it was used for before; violated by CurSyPtr (freed record), UelCntOrig and PrevElem, which are not reset. The theorems about histories (C01-C06, C08, C13-C17 and others) start from a new object and allow any number of files to be opened and closed on the way. C48_same_partial: what is written by a list of calls in an object that had other files open before is byte by byte the file a new object would write, as far as the calls do not use settings that outlive a file (C48_settings_counterexample)."
  },
  {
   "property": "C49",
   "status": "partial",
   "theorems": [
    "Gdx.Props.C49_count_partial",
    "Gdx.Props.C49_counterexample",
    "Gdx.Props.C49_alias_counterexample"
   ],
   "note": "Symbols written in any mode. Fails for scalars with several records and for aliases (shown)."
  },
  {
   "property": "C50",
   "status": "proved",
   "theorems": [
    "Gdx.Props.C50_strings"
   ],
   "note": "Every file content."
  },
  {
   "property": "C51",
   "status": "proved",
   "theorems": [
    "Gdx.Props.C51_session",
    "Gdx.Props.C01_session",
    "Gdx.Props.C51_block"
   ],
   "note": ""
  },
  {
   "property": "C52",
   "status": "proved",
   "theorems": [
    "Gdx.Props.C52_set",
    "Gdx.Props.C52_once"
   ],
   "note": ""
  },
  {
   "property": "C53",
   "status": "proved",
   "theorems": [
    "Gdx.Props.C53_session",
    "Gdx.Props.C51_session",
    "Gdx.Props.C53_block",
    "Gdx.Props.C53_outside_bounds"
   ],
   "note": ""
  },
  {
   "property": "C54",
   "status": "proved",
   "theorems": [
    "Gdx.Props.C54_text",
    "Gdx.Props.C54_write"
   ],
   "note": ""
  },
  {
   "property": "C55",
   "status": "proved",
   "theorems": [
    "Gdx.Props.C55_old_format",
    "Gdx.Props.C55_threshold_matters"
   ],
   "note": ""
  },
  {
   "property": "C56",
   "status": "proved",
   "theorems": [
    "Gdx.Props.C56_special",
    "Gdx.Props.C56_mixed",
    "Gdx.Props.C56_acronyms",
    "Gdx.Props.C56_absolute",
    "Gdx.Props.C56_exact",
    "Gdx.Props.C56_symm",
    "Gdx.Props.C56_mono",
    "Gdx.Props.C56_refl"
   ],
   "note": "Exact rational values; the program rounds the difference, so with a tolerance the result in the gap between the tolerance and the next double is left open. Relative tolerance: only monotonicity, symmetry and reflexivity."
  },
  {
   "property": "C57",
   "status": "partial",
   "theorems": [
    "Gdx.Props.C57_files",
    "Gdx.Props.C57_same",
    "Gdx.Props.C57_own_partial"
   ],
   "note": "Same content is defined on its own (SameFiles, SameSym, SameKey, Agree, in Props/DiffSame and DiffFiles). Proved for files written by the library in any history (C57_own_partial). Missing: files with an alias of the universe or a scalar without record (undefined behaviour is possible there, C59), and keys that are no elements of the file."
  },
  {
   "property": "C58",
   "status": "partial",
   "theorems": [
    "Gdx.Props.C58_self_partial",
    "Gdx.Props.C58_ends_partial",
    "Gdx.Props.C58_own_partial",
    "Gdx.Props.C58_infinite"
   ],
   "note": "If it ends, for every file content, if the names of the symbols are different and the values finite. It ends for files of the library (C58_own_partial: nothing is assumed of values except that those of sets are whole numbers; subtypes must be those gdxdiff knows, C59)."
  },
  {
   "property": "C59",
   "status": "partial",
   "theorems": [
    "Gdx.Props.C59_equation",
    "Gdx.Props.C59_equation_file",
    "Gdx.Props.C59_diffonly",
    "Gdx.Props.C59_scalar",
    "Gdx.Props.C72_own_partial"
   ],
   "note": "Violated: all files with equations, DiffOnly with dimension 19, scalar without record after a sorted symbol. For complete files of the library with subtypes that gdxdiff knows, without MatrixFile, and with DiffOnly no variable or equation of 19 dimensions, the run has no undefined behaviour (C72_own_partial)."
  },
  {
   "property": "C60",
   "status": "partial",
   "theorems": [
    "Gdx.Props.C60_read_partial",
    "Gdx.Props.C60_entry",
    "Gdx.Props.C60_alias",
    "Gdx.Props.C60_domain",
    "Gdx.Props.C60_record",
    "Gdx.Props.C60_label"
   ],
   "note": "Violated: concrete damaged files that are accepted and then lead to undefined behaviour. Proved: with a sane table entry, short labels and no repeated texts, reading is undefined only at a record broken in one of four listed ways. Missing: aliases, mapped and filtered reading, opening itself."
  },
  {
   "property": "C61",
   "status": "partial",
   "theorems": [
    "Gdx.Props.C61_merge_partial",
    "Gdx.Props.C61_own_partial",
    "Gdx.Props.C61_same_name",
    "Gdx.Props.C61_same_name_case",
    "Gdx.Props.C61_id_case",
    "Gdx.Props.C61_acronym"
   ],
   "note": "Violated for input files of the same name and for symbols with the name of an acronym. Proved for all other files written by the library (without acronyms) and without BIG."
  },
  {
   "property": "C62",
   "status": "partial",
   "theorems": [
    "Gdx.Props.C62_big_partial",
    "Gdx.Props.C62_own_partial",
    "Gdx.Props.C62_scalar",
    "Gdx.Props.C62_empty_label",
    "Gdx.Props.C62_types",
    "Gdx.Props.C62_wide",
    "Gdx.Props.C62_text",
    "Gdx.Props.C62_select",
    "Gdx.Props.C62_twice",
    "Gdx.Props.C62_unreadable"
   ],
   "note": "C62_big_partial: with BIG all symbols and records are there when symbols with one name agree and no big symbol has dimension 0 or more than 17. Violated outside of that: explanatory texts are lost, scalars and symbols with 18 indices are undefined, the empty string becomes a label, types are not compared, the selection by ID and the number of errors differ, and a file that cannot be opened makes the output unusable."
  },
  {
   "property": "C63",
   "status": "proved",
   "theorems": [
    "Gdx.Props.C63_number",
    "Gdx.Props.C63_size"
   ],
   "note": ""
  },
  {
   "property": "C64",
   "status": "partial",
   "theorems": [
    "Gdx.Props.C64_sort",
    "Gdx.Props.C64_sort_any",
    "Gdx.Props.C64_find",
    "Gdx.Props.C64_step",
    "Gdx.Props.C64_sorted",
    "Gdx.Props.C64_index_sorted",
    "Gdx.Props.C64_index"
   ],
   "note": "Sorting, searching and the operations are proved for up to 2^30 strings. Violated: IndexOf of a list that is not marked as sorted calls itself for ever (C64_index)."
  },
  {
   "property": "C65",
   "status": "partial",
   "theorems": [
    "Gdx.Props.C65_history",
    "Gdx.Props.C65_add",
    "Gdx.Props.C65_insert",
    "Gdx.Props.C65_delete",
    "Gdx.Props.C65_extract",
    "Gdx.Props.C65_remove",
    "Gdx.Props.C65_index",
    "Gdx.Props.C65_get",
    "Gdx.Props.C65_last",
    "Gdx.Props.C65_clear",
    "Gdx.Props.C65_empty",
    "Gdx.Props.C65_delete_one",
    "Gdx.Props.C65_remove_one"
   ],
   "note": "Proved for indices from 0. With indices from 1 (never used by the library) Delete and Remove take out the wrong item (C65_delete_one, C65_remove_one); the other operations are proved for both."
  },
  {
   "property": "C66",
   "status": "partial",
   "theorems": [
    "Gdx.Props.C66_decimal",
    "Gdx.Props.C66_zero",
    "Gdx.Props.C66_fifteen",
    "Gdx.Props.C66_hexBytes",
    "Gdx.Props.C66_hexponential",
    "Gdx.Props.C66_hexponential_inj",
    "Gdx.Props.C66_comma_plain",
    "Gdx.Props.C66_comma_ignored",
    "Gdx.Props.C66_comma_counterexample",
    "Gdx.Props.C66_undefined"
   ],
   "note": "Proved with the decimal point and for the hexadecimal formats. Violated: with DecimalSep=comma a number with exponent keeps its point (C66_comma_ignored, C66_comma_counterexample); an infinite value or NaN is undefined (C66_undefined)."
  },
  {
   "property": "C67",
   "status": "partial",
   "theorems": [
    "Gdx.Props.C67_csv",
    "Gdx.Props.C67_own",
    "Gdx.Props.C67_period"
   ],
   "note": "Proved for the layout with one record per line (no CDim, header made by gdxdump). Violated: Delim=period is accepted together with the decimal point, and numbers are then read as two fields (C67_period)."
  },
  {
   "property": "C68",
   "status": "partial",
   "theorems": [
    "Gdx.Props.C68_names_partial",
    "Gdx.Props.C68_neighbours"
   ],
   "note": "Proved: one name per dimension, made as described, different for columns that are not neighbours. Violated: the comparison leaves out the column before, neighbouring columns with the same domain get the same name (C68_neighbours)."
  },
  {
   "property": "C69",
   "status": "partial",
   "theorems": [
    "Gdx.Props.C69_table",
    "Gdx.Props.C69_own",
    "Gdx.Props.C69_no_label"
   ],
   "note": "Proved for files all of whose elements have labels. Violated: a key with an element number above the number of labels (raw writing allows it) is marked outside CSVCols (C69_no_label)."
  },
  {
   "property": "C70",
   "status": "partial",
   "theorems": [
    "Gdx.Props.C70_decl",
    "Gdx.Props.C70_own",
    "Gdx.Props.C70_alias",
    "Gdx.Props.C70_quote",
    "Gdx.Props.C70_comment",
    "Gdx.Props.C70_logic",
    "Gdx.Props.C70_delim"
   ],
   "note": "Proved for symbols of files of the library, for sets, parameters, variables and equations: texts that start with a quote or dot must contain a special character, comments have no newline, scalars have no comment, values are finite or special, names of acronyms are words. Not covered: sets and aliases without dimension. Violated: texts that start with a quote (C70_quote), comments of scalars and with newline (C70_comment), logical equations (C70_logic), Delim=comma (C70_delim)."
  },
  {
   "property": "C71",
   "status": "partial",
   "theorems": [
    "Gdx.Props.C71_labels",
    "Gdx.Props.C71_symbols",
    "Gdx.Props.C71_acronyms"
   ],
   "note": "Labels and symbols are proved. Violated: the list of acronyms starts with an empty declaration and misses the last one (C71_acronyms). SymbolsAsSetDI: see C81."
  },
  {
   "property": "C72",
   "status": "partial",
   "theorems": [
    "Gdx.Props.C72_diff_partial",
    "Gdx.Props.C72_own_partial",
    "Gdx.Props.C72_matrix",
    "Gdx.Props.C72_acronym",
    "Gdx.Props.C72_name",
    "Gdx.Props.C72_alias"
   ],
   "note": "Proved for pairs of files written by the library in any history (C72_own_partial), with subtypes of variables and equations that gdxdiff knows (C59) and whole numbers as values of sets. With DiffOnly no variable or equation may have 19 dimensions (C59). Violated: MatrixFile shows wrong labels (C72_matrix), names of acronyms are lost (C72_acronym)."
  },
  {
   "property": "C73",
   "status": "partial",
   "theorems": [
    "Gdx.Props.C73_crack_partial",
    "Gdx.Props.C73_total",
    "Gdx.Props.C73_last",
    "Gdx.Props.C73_none",
    "Gdx.Props.C73_value_partial",
    "Gdx.Props.C73_value_long",
    "Gdx.Props.C73_fails",
    "Gdx.Props.C73_at",
    "Gdx.Props.C73_equals",
    "Gdx.Props.C73_stray",
    "Gdx.Props.C73_swallow",
    "Gdx.Props.C73_utf8",
    "Gdx.Props.C73_blanks"
   ],
   "note": "Proved for words without =, quotes and @ that start with an ASCII character. Violated for others (C73_fails and its witnesses), for blanks in parameter files, and for values longer than 255 bytes."
  },
  {
   "property": "C74",
   "status": "partial",
   "theorems": [
    "Gdx.Props.C74_options_partial",
    "Gdx.Props.C74_main_partial",
    "Gdx.Props.C74_audit",
    "Gdx.Props.C74_nofile",
    "Gdx.Props.C74_long",
    "Gdx.Props.C74_longname",
    "Gdx.Props.C74_misspelled",
    "Gdx.Props.C74_ignored",
    "Gdx.Props.C74_novalue"
   ],
   "note": "Proved for all lists of parameters with values of at most 251 bytes. Violated: longer values (undefined behaviour); words that are no options are not reported. The conversion of numbers is a parameter."
  },
  {
   "property": "C75",
   "status": "partial",
   "theorems": [
    "Gdx.Props.C75_options_partial",
    "Gdx.Props.C75_main_partial",
    "Gdx.Props.C75_labels",
    "Gdx.Props.C75_usage",
    "Gdx.Props.C75_untouched_partial",
    "Gdx.Props.C75_deleted",
    "Gdx.Props.C75_begun",
    "Gdx.Props.C75_blank",
    "Gdx.Props.C75_strict",
    "Gdx.Props.C75_big",
    "Gdx.Props.C75_novalue",
    "Gdx.Props.C75_twice",
    "Gdx.Props.C75_long"
   ],
   "note": "Proved for lists of parameters with numbers for big, strict given once and names of at most 251 bytes. Violated: an error deletes an existing output file (C75_deleted) or leaves a begun one (C75_begun); other values of big and strict are ignored without an error."
  },
  {
   "property": "C76",
   "status": "partial",
   "theorems": [
    "Gdx.Props.C76_number_partial",
    "Gdx.Props.C76_accept_partial",
    "Gdx.Props.C76_defined",
    "Gdx.Props.C76_long",
    "Gdx.Props.C76_range",
    "Gdx.Props.C76_small",
    "Gdx.Props.C76_prefix"
   ],
   "note": "Proved for texts of at most 255 bytes with values in the range of int. Violated: other values are accepted with a wrong number, $ with a small letter is refused, $0x10 is accepted; undefined behaviour for longer texts. The position of an error is not stated."
  },
  {
   "property": "C77",
   "status": "partial",
   "theorems": [
    "Gdx.Props.C77_try",
    "Gdx.Props.C77_encode",
    "Gdx.Props.C77_decode",
    "Gdx.Props.C77_time",
    "Gdx.Props.C77_text_partial",
    "Gdx.Props.C77_1600",
    "Gdx.Props.C77_1800",
    "Gdx.Props.C77_2038",
    "Gdx.Props.C77_midnight"
   ],
   "note": "tryEncodeDate (years 1 to 9999), EncodeDate (from March 1600), decoding (years 1 to 65535) and the sum of day and time (from 1900) are proved for all days and times. Violated: EncodeDate before March 1600, times before 1900, file times after 2038, the hour 24."
  },
  {
   "property": "C78",
   "status": "partial",
   "theorems": [
    "Gdx.Props.C78_str",
    "Gdx.Props.C78_value_partial",
    "Gdx.Props.C78_dollar_partial",
    "Gdx.Props.C78_back_partial",
    "Gdx.Props.C78_max",
    "Gdx.Props.C78_limit",
    "Gdx.Props.C78_min",
    "Gdx.Props.C78_int",
    "Gdx.Props.C78_val",
    "Gdx.Props.C78_sound",
    "Gdx.Props.C78_int_sound",
    "Gdx.Props.C78_hex_partial",
    "Gdx.Props.C78_hex_width",
    "Gdx.Props.C78_hex_negative",
    "Gdx.Props.C78_nice",
    "Gdx.Props.C78_width_partial",
    "Gdx.Props.C78_width_min",
    "Gdx.Props.C78_col",
    "Gdx.Props.C78_col_none",
    "Gdx.Props.C78_col_overflow",
    "Gdx.Props.C78_excel_partial",
    "Gdx.Props.C78_excel"
   ],
   "note": "IntToStr, StrToInt, IntToNiceStrW are proved for all numbers. Violated: StrToInt64 overflows for the 48 largest numbers, IntToHex has one place less than asked for and is undefined for negative numbers, IntegerWidth of the smallest int, StrExcelCol of large columns, ExcelColStr gives the letters in reverse order."
  },
  {
   "property": "C79",
   "status": "partial",
   "theorems": [
    "Gdx.Props.C79_options_partial",
    "Gdx.Props.C79_swallow",
    "Gdx.Props.C79_ignored",
    "Gdx.Props.C79_maybe",
    "Gdx.Props.C79_again",
    "Gdx.Props.C79_long"
   ],
   "note": "Proved for arguments of at most 254 bytes, values of Y/N options that are Y or N, and dFormat=normal not given before another dFormat. Violated: an empty value takes the next argument, a rest after an equal sign is ignored, every other value means no, dFormat can be repeated, long arguments are undefined behaviour."
  },
  {
   "property": "C80",
   "status": "partial",
   "theorems": [
    "Gdx.Props.C80_own_partial",
    "Gdx.Props.C80_acronyms",
    "Gdx.Props.C80_alias0",
    "Gdx.Props.C80_sep"
   ],
   "note": "Proved for files of the library without acronyms whose symbols are as in C70 (no sets without index, no scalars with comments, no comments with a newline, finite values) or aliases of sets with an index. Violated: acronyms (first one declared without a name), alias of a set without index (stray empty list), DecimalSep=comma."
  },
  {
   "property": "C81",
   "status": "partial",
   "theorems": [
    "Gdx.Props.C81_symbols_partial",
    "Gdx.Props.C81_domains",
    "Gdx.Props.C81_set",
    "Gdx.Props.C81_texts_partial",
    "Gdx.Props.C81_alias",
    "Gdx.Props.C81_last"
   ],
   "note": "Symbols: lines of aliases are one column too far right, otherwise proved. DomainInfo and SymbolsAsSetDI proved (SymbolsAsSetDI for files with a symbol). SetText: proved with the maximum over all symbols but the last, when the first text is empty and the values of sets are numbers; the last symbol is not looked at."
  },
  {
   "property": "C82",
   "status": "partial",
   "theorems": [
    "Gdx.Props.C82_own_partial",
    "Gdx.Props.C82_one_partial",
    "Gdx.Props.C82_alias0",
    "Gdx.Props.C82_sep",
    "Gdx.Props.C82_delim"
   ],
   "note": "Proved for files of the library without acronyms, comments without a newline and finite values, with dots or commas between labels and a decimal point. Violated: acronyms (as C80), DecimalSep=comma, Delim=semicolon; a stray empty statement for the alias of a set without index."
  },
  {
   "property": "C83",
   "status": "partial",
   "theorems": [
    "Gdx.Props.C83_own_partial",
    "Gdx.Props.C83_comment",
    "Gdx.Props.C83_bang",
    "Gdx.Props.C83_acronyms"
   ],
   "note": "Proved for files of the library without acronyms whose symbols have no comments and no `!!` in the explanatory text, for names of files without blanks. Violated for comments (they become the explanatory text), `!!` in a text (the declaration has no end) and acronyms."
  },
  {
   "property": "C84",
   "status": "partial",
   "theorems": [
    "Gdx.Props.C84_exit_partial",
    "Gdx.Props.C84_program_partial",
    "Gdx.Props.C84_load_partial",
    "Gdx.Props.C84_symb_partial",
    "Gdx.Props.C84_csv_partial",
    "Gdx.Props.C84_bas_partial",
    "Gdx.Props.C84_bas_symb_partial",
    "Gdx.Props.C84_lists_partial",
    "Gdx.Props.C84_texts_partial",
    "Gdx.Props.C84_uelTable_partial",
    "Gdx.Props.C84_version",
    "Gdx.Props.C84_clobber",
    "Gdx.Props.C84_uels",
    "Gdx.Props.C84_list_acronyms"
   ],
   "note": "Exit codes: all command lines of the kind of C79 and all contents of files, if the run has a defined end. Output: files of the library without acronyms, with the limits of C67, C69-C71 and C79-C83 (CSV also with acronyms). Violated: the output file may be the input file, which is then destroyed."
  },
  {
   "property": "C85",
   "status": "partial",
   "theorems": [
    "Gdx.Props.C85_exit_partial",
    "Gdx.Props.C85_codes",
    "Gdx.Props.C85_own_partial",
    "Gdx.Props.C85_input",
    "Gdx.Props.C85_temporary",
    "Gdx.Props.C85_stuck"
   ],
   "note": "Exit codes, files and standard output: all command lines of the kind of C74, all contents and all answers of the file system, if the run has a defined end. 0 exactly for the same content: files of the library, with the limits of C57 and C72. Violated: the output may be an input file, which is replaced on POSIX; an output with the name of the temporary file is deleted; if renaming fails, the older difference file is lost."
  },
  {
   "property": "C86",
   "status": "partial",
   "theorems": [
    "Gdx.Props.C86_exit_partial",
    "Gdx.Props.C86_own_partial",
    "Gdx.Props.C86_big_partial",
    "Gdx.Props.C86_count",
    "Gdx.Props.C86_input",
    "Gdx.Props.C86_none",
    "Gdx.Props.C86_errors",
    "Gdx.Props.C86_unread"
   ],
   "note": "Exit code, output file and count: all command lines of the kind of C75 and all contents, if the run has a defined end. Content of the output: files of the library, with the limits of C61 and C62. Violated: with BIG every file is counted twice; an output file that is given as input is deleted without an error."
  },
  {
   "property": "C87",
   "status": "partial",
   "theorems": [
    "Gdx.Props.C87_close",
    "Gdx.Props.C87_other",
    "Gdx.Props.C87_writing",
    "Gdx.Props.C87_done",
    "Gdx.Props.C87_raw",
    "Gdx.Props.C87_begun",
    "Gdx.Props.C87_sorted",
    "Gdx.Props.C87_collected",
    "Gdx.Props.C87_start",
    "Gdx.Props.C87_merge",
    "Gdx.Props.C87_diff",
    "Gdx.Props.C87_comment",
    "Gdx.Props.C87_acronym"
   ],
   "note": "Proved as an equivalence for every history, if no symbol is being written, or records are being written; in mapped and string mode for up to 2^31 - 257 elements and 2^31 - 1 records. Violated: closing after a refused Start function; a comment, or a name or text of an acronym, of more than 255 bytes is accepted and makes the close undefined."
  },
  {
   "property": "C88",
   "status": "partial",
   "theorems": [
    "Gdx.Props.C88_map_partial",
    "Gdx.Props.C88_str_partial",
    "Gdx.Props.C88_refused",
    "Gdx.Props.C88_start",
    "Gdx.Props.C88_raw_partial",
    "Gdx.Props.C88_raw_refused",
    "Gdx.Props.C88_raw_start"
   ],
   "note": "Proved for every history with a current symbol and at most 2^31 - 257 elements; in string mode for strings whose trimmed form fits its buffer; in raw mode for keys with numbers from 0 to 2^31 - 257 within the bounds of the symbol. Violated after a refused Start function: the sort list is gone and the next record is undefined behaviour."
  }
 ]
}