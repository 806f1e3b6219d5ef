{"claims": [
  {"property": "C01", "status": "proved", "theorems": ["Wayuu.C01_trim", "Wayuu.C01_strip_unique"], "note": ""},
  {"property": "C02", "status": "proved", "theorems": ["Wayuu.C02_found", "Wayuu.C02_absent", "Wayuu.C02_rebuild"], "note": ""},
  {"property": "C03", "status": "proved", "theorems": ["Wayuu.C03_split_once", "Wayuu.C03_any", "Wayuu.C03_whole"], "note": ""},
  {"property": "C04", "status": "partial", "theorems": ["Wayuu.C04_refuted", "Wayuu.C04_partial", "Wayuu.C04_colon"], "note": "False of the code: the delimiter argument is ignored and ':' is always used. The partial theorem covers ':'; C04_colon: whatever delimiter is passed, the split is at the first colon."},
  {"property": "C05", "status": "proved", "theorems": ["Wayuu.C05_split", "Wayuu.C05_any", "Wayuu.C05_over"], "note": "C05_over shows that the limit of 50 tokens is sharp. C05_any: parts of any length and number; one of 1023 bytes or more is cut and not terminated."},
  {"property": "C06", "status": "partial", "theorems": ["Wayuu.C06_refuted", "Wayuu.C06_partial", "Wayuu.C06_exact", "Wayuu.C06_agree", "Wayuu.C06_join", "Wayuu.C06_join_nulls", "Wayuu.C06_join_empty", "Wayuu.C06_join_ends"], "note": "False of the code from 2 GiB on: the size of the block is an int (C06_refuted: two strings of 1 GiB; C06_exact: the limit). Below that everything holds (C06_partial, C06_agree; C06_join and the others take the size as unbounded)."},
  {"property": "C07", "status": "proved", "theorems": ["Wayuu.C07_startswith", "Wayuu.C07_startswithany"], "note": ""},
  {"property": "C08", "status": "proved", "theorems": ["Wayuu.C08_find", "Wayuu.C08_window", "Wayuu.C08_safe"], "note": ""},
  {"property": "C09", "status": "proved", "theorems": ["Wayuu.C09_chop"], "note": ""},
  {"property": "C10", "status": "proved", "theorems": ["Wayuu.C10_isalnum"], "note": ""},
  {"property": "C11", "status": "proved", "theorems": ["Wayuu.C11_md5sum", "Wayuu.C11_md5sum_empty", "Wayuu.C11_injective"], "note": "MD5 itself is an arbitrary function to 16 bytes."},
  {"property": "C12", "status": "partial", "theorems": ["Wayuu.C12_refuted", "Wayuu.C12_overflow", "Wayuu.C12_partial"], "note": "refuted: with the library's maximum digest size, 64, md5sum writes 129 bytes into the 36 byte array of save_tmp_file, so receiving any file is undefined behaviour (C12_overflow, for every form with a file, or with a field that contains the file name mark). C12_partial: with a maximum digest size of 16 or 17, where the array is large enough, the file is stored intact under the promised name, nothing else in the file system changes, and the form string is as promised (one file per form; names of bytes 35 to 127)."},
  {"property": "C13", "status": "partial", "theorems": ["Wayuu.C13_refuted", "Wayuu.C13_partial", "Wayuu.C13_exact", "Wayuu.C13_forged", "Wayuu.C13_empty", "Wayuu.C13_limit", "Wayuu.C13_agree"], "note": "False of the code: strings are not escaped. C13_exact: the result is the array if and only if no string has a quote, a backslash or a control byte; C13_forged: one string can be taken for any array of strings. Those take the size of the block as unbounded; it is an int, which agrees below 2 GiB (C13_agree) and fails from there on (C13_limit)."},
  {"property": "C14", "status": "proved", "theorems": ["Wayuu.C14_ints", "Wayuu.C14_empty"], "note": ""},
  {"property": "C15", "status": "partial", "theorems": ["Wayuu.C15_refuted", "Wayuu.C15_refuted_escape", "Wayuu.C15_partial", "Wayuu.C15_int_partial", "Wayuu.C15_bool_partial", "Wayuu.C15_uint32_partial", "Wayuu.C15_exact", "Wayuu.C15_key_exact", "Wayuu.C15_forged"], "note": "False of the code: a NULL value is dereferenced and nothing is escaped. C15_exact, C15_key_exact: right if and only if key and value need no escaping; C15_forged: a value can be taken for a further member."},
  {"property": "C16", "status": "partial", "theorems": ["Wayuu.C16_refuted", "Wayuu.C16_partial", "Wayuu.C16_exact", "Wayuu.C16_entities", "Wayuu.C16_valid", "Wayuu.C16_nulls"], "note": "False of the code from 2 GiB on: join keeps the size of its block in an int (C16_refuted, C16_exact). Below that everything holds (C16_partial; C16_entities, C16_valid and C16_nulls take the size as unbounded)."},
  {"property": "C17", "status": "partial", "theorems": ["Wayuu.C17_refuted", "Wayuu.C17_refuted_crash", "Wayuu.C17_partial", "Wayuu.C17_none_partial", "Wayuu.C17_crash_partial", "Wayuu.C17_exact"], "note": "False of the code: values are cut at a second '=', '=v' is read as a key and a line of '=' dereferences NULL. C17_exact: what every line gives."},
  {"property": "C18", "status": "partial", "theorems": ["Wayuu.C18_refuted", "Wayuu.C18_overflow", "Wayuu.C18_partial", "Wayuu.C18_elements_exist"], "note": "False of the code: more than 20 elements write past the item. Proved for up to 20."},
  {"property": "C19", "status": "proved", "theorems": ["Wayuu.C19_roundtrip"], "note": ""},
  {"property": "C20", "status": "partial", "theorems": ["Wayuu.C20_refuted", "Wayuu.C20_partial", "Wayuu.C20_unreadable_partial", "Wayuu.C20_exact", "Wayuu.C20_total"], "note": "False of the code for malformed lines. Proved for every file of well-formed lines, up to and including the first line without '='. C20_exact: what every file gives (C20_total: none is left out): pieces of 511 bytes, an empty line ends the reading, = separates any number of parts of which two are used."},
  {"property": "C21", "status": "proved", "theorems": ["Wayuu.C21_write_parse", "Wayuu.C21_serializer", "Wayuu.C21_values", "Wayuu.C21_over"], "note": "C21_values: from the constructor new_conf_item_with_values on. C21_over: what happens to a 21st item."},
  {"property": "C22", "status": "proved", "theorems": ["Wayuu.C22_found", "Wayuu.C22_absent"], "note": ""},
  {"property": "C23", "status": "proved", "theorems": ["Wayuu.C23_no_bad_free"], "note": "Blocks, literals and frees are explicit in Model/ConfHeap.lean."},
  {"property": "C24", "status": "proved", "theorems": ["Wayuu.C24_resolve", "Wayuu.C24_register"], "note": "Templates whose prefix is ASCII."},
  {"property": "C25", "status": "proved", "theorems": ["Wayuu.C25_dispatch", "Wayuu.C25_reject", "Wayuu.C25_const"], "note": "'Matches' for a parameter route means containing its prefix; see C28."},
  {"property": "C26", "status": "proved", "theorems": ["Wayuu.C26_filter"], "note": ""},
  {"property": "C27", "status": "partial", "theorems": ["Wayuu.C27_refuted", "Wayuu.C27_partial", "Wayuu.C27_body"], "note": "False of the code: appending to a body overruns its block. C27_partial is the exact behaviour."},
  {"property": "C28", "status": "partial", "theorems": ["Wayuu.C28_refuted", "Wayuu.C28_witness", "Wayuu.C28_partial", "Wayuu.C28_anywhere"], "note": "False of the code: strstr finds the prefix anywhere. C28_anywhere: wherever it is found, the handler runs with what follows the first |PREFIX| bytes of METHOD:PATH as its parameter."},
  {"property": "C29", "status": "partial", "theorems": ["Wayuu.C29_refuted", "Wayuu.C29_over", "Wayuu.C29_partial"], "note": "False of the code: POST with a path of 250 bytes."},
  {"property": "C30", "status": "proved", "theorems": ["Wayuu.C30_status", "Wayuu.C30_unsupported", "Wayuu.C30_over", "Wayuu.C30_helpers", "Wayuu.response_unambiguous"], "note": "C30_over shows that longer messages overflow the buffer."},
  {"property": "C31", "status": "proved", "theorems": ["Wayuu.C31_json", "Wayuu.C31_helpers", "Wayuu.C31_list"], "note": "Payloads below 2 GiB (the length is passed as an int)."},
  {"property": "C32", "status": "proved", "theorems": ["Wayuu.C32_status", "Wayuu.C32_json", "Wayuu.C32_helpers", "Wayuu.C32_stream", "Wayuu.C32_file"], "note": "Messages of up to 943 bytes, texts and files below 2 GiB; C126 says what becomes of larger files."},
  {"property": "C33", "status": "proved", "theorems": ["Wayuu.C33_stream", "Wayuu.C33_response", "Wayuu.C33_nul"], "note": "C33_nul shows that the condition on NUL bytes is needed."},
  {"property": "C34", "status": "partial", "theorems": ["Wayuu.C34_refuted", "Wayuu.C34_partial", "Wayuu.C34_wrong", "Wayuu.C34_mime_partial"], "note": "False of the code: the csv test is inverted. C34_wrong gives the exact behaviour in the failing cases."},
  {"property": "C35", "status": "partial", "theorems": ["Wayuu.C35_refuted", "Wayuu.C35_never", "Wayuu.C35_partial", "Wayuu.C35_missing_partial"], "note": "False of the code: the status line is sent twice for every file."},
  {"property": "C36", "status": "partial", "theorems": ["Wayuu.C36_refuted", "Wayuu.C36_refuted_empty", "Wayuu.C36_runs_partial", "Wayuu.C36_partial", "Wayuu.C36_uninit", "Wayuu.C36_over", "Wayuu.C36_exact"], "note": "False of the code for empty paths and for queries with a second '?'. C36_runs_partial is the exact behaviour. C36_exact: for a URL with a path and a query part the answer is that path and that query exactly when the path is not empty and the query holds no further question mark. C36_over: more than 50 pieces between question marks overrun the array of pieces, whatever the bytes."},
  {"property": "C37", "status": "partial", "theorems": ["Wayuu.C37_refuted", "Wayuu.C37_partial", "Wayuu.C37_exact", "Wayuu.C37_long"], "note": "False of the code for values of 256 bytes or more and names of 64 or more. C37_exact and C37_long give the outcome in every case: only the value asked for, or a stored name with the same first 64 bytes as a long name asked for, leads past an array; the other headers may be of any length."},
  {"property": "C38", "status": "partial", "theorems": ["Wayuu.C38_refuted", "Wayuu.C38_uninit", "Wayuu.C38_partial", "Wayuu.C38_forged"], "note": "False of the code: empty text or description or an unknown status use uninitialised pointers. C38_forged: what texts that need escaping can be taken for."},
  {"property": "C39", "status": "partial", "theorems": ["Wayuu.C39_refuted", "Wayuu.C39_stored", "Wayuu.C39_over", "Wayuu.C39_text", "Wayuu.C39_partial", "Wayuu.C39_exact", "Wayuu.C39_forged", "Wayuu.C39_response"], "note": "False of the code exactly for texts that need escaping (C39_exact); C39_forged: a message can be taken for a further member. Storage and memory safety are proved for all texts."},
  {"property": "C40", "status": "proved", "theorems": ["Wayuu.C40_get_line", "Wayuu.C40_unique"], "note": ""},
  {"property": "C41", "status": "proved", "theorems": ["Wayuu.C41_method", "Wayuu.C41_short"], "note": "C41_short shows that the bound of two bytes is needed."},
  {"property": "C42", "status": "proved", "theorems": ["Wayuu.C42_stored", "Wayuu.C42_lookup"], "note": "C42_stored also says what becomes of longer names and values."},
  {"property": "C43", "status": "partial", "theorems": ["Wayuu.C43_refuted", "Wayuu.C43_partial", "Wayuu.C43_bounded", "Wayuu.C43_cookie", "Wayuu.C43_authorization", "Wayuu.C43_exact", "Wayuu.C43_anycookie"], "note": "False of the code for Authorization headers and cookies; C43_authorization and C43_cookie give what is stored instead; C43_exact: for all sections (Cookie lines of 18 bytes or more), as the user code finds it; C43_anycookie: cookies of any name become the session."},
  {"property": "C44", "status": "partial", "theorems": ["Wayuu.C44_refuted", "Wayuu.C44_partial", "Wayuu.C44_nobody", "Wayuu.C44_short", "Wayuu.C44_glued"], "note": "False of the code without a space after the colon; C44_glued: then the first digit is not looked at, and the number of bytes read is what the other digits say. C44_short gives the form when the input ends early."},
  {"property": "C45", "status": "partial", "theorems": ["Wayuu.C45_refuted", "Wayuu.C45_partial", "Wayuu.C45_general"], "note": "False of the code: names are cut at the first byte outside 35..127, and a value containing '; filename=\"' is taken for a file. C45_general covers every other body."},
  {"property": "C46", "status": "proved", "theorems": ["Wayuu.C46_filter"], "note": "Matching is by occurrence as a substring of a line, which is what the property states."},
  {"property": "C47", "status": "partial", "theorems": ["Wayuu.C47_refuted", "Wayuu.C47_partial"], "note": "False of the code: an address that is part of a listed one passes."},
  {"property": "C48", "status": "proved", "theorems": ["Wayuu.C48_rules", "Wayuu.C48_unique", "Wayuu.C48_over"], "note": "C48_over shows that the bound on paths is needed."},
  {"property": "C49", "status": "partial", "theorems": ["Wayuu.C49_refuted", "Wayuu.C49_partial", "Wayuu.C49_decision", "Wayuu.C49_attained"], "note": "False of the code: one connection more than the maximum is accepted. C49_partial and C49_attained give the exact bound."},
  {"property": "C50", "status": "partial", "theorems": ["Wayuu.C50_refuted", "Wayuu.C50_partial", "Wayuu.C50_unbounded", "Wayuu.C50_lost"], "note": "False of the code: validation and registration are not atomic. C50_partial covers schedules where they do not overlap."},
  {"property": "C51", "status": "proved", "theorems": ["Wayuu.C51_closed", "Wayuu.C51_helpers"], "note": ""},
  {"property": "C52", "status": "proved", "theorems": ["Wayuu.C52_fifo", "Wayuu.C52_bounded", "Wayuu.C52_safe", "Wayuu.C52_exclusive"], "note": "Any capacity above 0 and any number of workers; the server uses 1024 and 200."},
  {"property": "C53", "status": "proved", "theorems": ["Wayuu.C53_woken", "Wayuu.C53_drained", "Wayuu.C53_progress"], "note": ""},
  {"property": "C54", "status": "partial", "theorems": ["Wayuu.C54_refuted", "Wayuu.C54_leak", "Wayuu.C54_everything", "Wayuu.C54_partial"], "note": "False of the code: \"..\" in a path leaves the root; C54_everything: so every file of the machine that the server may read is sent to whoever asks. C54_partial covers every path without such a component."},
  {"property": "C55", "status": "partial", "theorems": ["Wayuu.C55_refuted", "Wayuu.C55_partial", "Wayuu.C55_rewritten", "Wayuu.C55_stack"], "note": "False of the code: the test for a final '/' looks at an uninitialised array. C55_stack says what happens for its other contents."},
  {"property": "C56", "status": "partial", "theorems": ["Wayuu.C56_refuted", "Wayuu.C56_partial", "Wayuu.C56_path", "Wayuu.C56_steals", "Wayuu.C56_freed"], "note": "False of the code: strtok keeps its position in one place for all threads. C56_freed: for any two requests there is a schedule under which the one reads the freed copy of the other's URL (undefined behaviour). C56_steals: for all URLs with queries there is a schedule under which one request is carried out with the query of another. C56_path: under every schedule without undefined behaviour the path is the own one, and what is taken for the query is a whole piece of some request. A call of strtok counts as one step."},
  {"property": "C57", "status": "proved", "theorems": ["Wayuu.C57_level", "Wayuu.C57_range", "Wayuu.C57_set"], "note": ""},
  {"property": "C58", "status": "partial", "theorems": ["Wayuu.C58_status", "Wayuu.C58_json", "Wayuu.C58_stream", "Wayuu.C58_file", "Wayuu.C58_witness", "Wayuu.C58_refuted", "Wayuu.C58_request", "Wayuu.C58_line_partial"], "note": "False of the code: an X-Real-IP header without a value makes the address a line break, which splits the line. C58_request: every request none of whose X-Real-IP lines is empty adds single lines only, whatever else the client sends."},
  {"property": "C59", "status": "partial", "theorems": ["Wayuu.C59_refuted", "Wayuu.C59_write_partial", "Wayuu.C59_unterminated", "Wayuu.C59_negative", "Wayuu.C59_read", "Wayuu.C59_read_over", "Wayuu.C59_find_partial", "Wayuu.C59_find_over", "Wayuu.C59_round_partial"], "note": "False of the code: write_file reads past data without a terminator. The other parts are exact."},
  {"property": "C60", "status": "proved", "theorems": ["Wayuu.C60_createdir"], "note": ""},
  {"property": "C61", "status": "partial", "theorems": ["Wayuu.C61_refuted", "Wayuu.C61_partial", "Wayuu.C61_static", "Wayuu.C61_launch", "Wayuu.C61_exit"], "note": "False of the code: the default address is 127.0.0.1 instead of 0.0.0.0, and -r does not move the static content."},
  {"property": "C62", "status": "partial", "theorems": ["Wayuu.C62_refuted", "Wayuu.C62_partial", "Wayuu.C62_silent"], "note": "False of the code: nothing is sent for a missing file if there is no site index (C62_silent, for all of them). C62_partial: with a site index everything is answered."},
  {"property": "C63", "status": "proved", "theorems": ["Wayuu.C63_request"], "note": ""},
  {"property": "C64", "status": "proved", "theorems": ["Wayuu.C64_api", "Wayuu.C64_static", "Wayuu.C64_method"], "note": ""},
  {"property": "C65", "status": "proved", "theorems": ["Wayuu.C65_admission", "Wayuu.C65_recorded"], "note": ""},
  {"property": "C66", "status": "partial", "theorems": ["Wayuu.C66_refuted", "Wayuu.C66_partial", "Wayuu.C66_leak"], "note": "False of the code: a socket that finds the queue full is dropped without being closed."},
  {"property": "C67", "status": "partial", "theorems": ["Wayuu.C67_refuted", "Wayuu.C67_unused"], "note": "False of the code: max_seconds is never used; C67_unused shows that it cannot influence anything."},
  {"property": "C68", "status": "partial", "theorems": ["Wayuu.C68_refuted", "Wayuu.C68_partial"], "note": "False of the code when there is nothing to join; C68_partial gives the exact condition."},
  {"property": "C69", "status": "partial", "theorems": ["Wayuu.C69_refuted", "Wayuu.C69_defined", "Wayuu.C69_partial"], "note": "False of the code; C69_defined gives the exact condition."},
  {"property": "C70", "status": "partial", "theorems": ["Wayuu.C70_refuted", "Wayuu.C70_partial"], "note": "False of the code: a quoted boundary is not understood and the handler gets an empty form. C70_partial covers plain boundaries at the end of their line; names and values as in C45_general."},
  {"property": "C71", "status": "partial", "theorems": ["Wayuu.C71_refuted", "Wayuu.C71_partial", "Wayuu.C71_cookie"], "note": "False of the code: the line end of a session cookie is kept and ends the header early. C71_partial covers requests without cookies, C71_cookie says what is sent otherwise."},
  {"property": "C72", "status": "partial", "theorems": ["Wayuu.C72_refuted", "Wayuu.C72_partial", "Wayuu.C72_quotes", "Wayuu.C72_truncated", "Wayuu.C72_short", "Wayuu.C72_early", "Wayuu.C72_exact", "Wayuu.C72_iff"], "note": "False of the code: a part that ends at its empty line (C72_truncated), a short part behind a field (C72_short, for example a delimiter after the closing one) and a name behind the empty line (C72_early) leave the arrays, whatever else the body holds. C72_partial: bodies of fields and of parts that name no field, as long as these are at least as long as all parts before them or contain a NUL; C72_quotes: every body without a quotation mark, whatever its delimiters. C72_exact and C72_iff: for every body and delimiter, exactly when the arrays are left and otherwise the exact form (`FormOf` in Spec/PartsFit.lean). Files: C12."},
  {"property": "C73", "status": "partial", "theorems": ["Wayuu.Mem.C73_refuted", "Wayuu.Mem.C73_partial", "Wayuu.Mem.C73_grows", "Wayuu.Mem.C73_query"], "note": "False of the code: only the request structure is freed. C73_partial gives the exact number of blocks every kind of request leaves, and that nothing is freed twice or wrongly; C73_grows the growth over any number of requests."},
  {"property": "C74", "status": "proved", "theorems": ["Wayuu.C74_fits", "Wayuu.C74_unique", "Wayuu.C74_decision"], "note": ""},
  {"property": "C75", "status": "partial", "theorems": ["Wayuu.C75_refuted", "Wayuu.C75_partial", "Wayuu.C75_helpers"], "note": "False of the code: an uninitialised array makes the answer for a path depend on what earlier calls left on the stack. C75_partial: with equal stack contents each request gets what it would get alone. Handlers must not look at earlier output (C75_helpers: the response helpers do not)."},
  {"property": "C76", "status": "partial", "theorems": ["Wayuu.C76_refuted", "Wayuu.C76_partial", "Wayuu.C76_kept", "Wayuu.C76_line"], "note": "False of the code: a message is written with three calls of fprintf, between which other threads write. C76_partial: schedules that keep messages apart give whole lines. C76_kept: under every schedule no part of a message is lost, repeated or reordered within its thread."},
  {"property": "C77", "status": "proved", "theorems": ["Wayuu.C77_lines", "Wayuu.C77_short", "Wayuu.C77_helpers"], "note": "Time stamp and response time of at most 63 bytes each (both are shorter); user code writes lines with the helpers of the library (C77_helpers)."},
  {"property": "C78", "status": "partial", "theorems": ["Wayuu.C78_refuted", "Wayuu.C78_overload", "Wayuu.C78_error", "Wayuu.C78_partial", "Wayuu.C78_lost"], "note": "False of the code: sockets turned away are never closed, and when accept fails the process exits; so do other errors of accept. C78_partial: the descriptors in use are bounded by queue, pool and the sockets turned away so far, and the process goes on while none has been."},
  {"property": "C79", "status": "proved", "theorems": ["Wayuu.C79_apart"], "note": ""},
  {"property": "C80", "status": "partial", "theorems": ["Wayuu.C80_refuted", "Wayuu.C80_blocked", "Wayuu.C80_partial"], "note": "False of the code: there are no time-outs, so one silent client more than there are workers stops the service (C80_blocked, for every size). C80_partial: with fewer silent clients than workers everybody else is served."},
  {"property": "C81", "status": "proved", "theorems": ["Wayuu.C81_headers", "Wayuu.C81_form", "Wayuu.C81_stream", "Wayuu.C81_conf", "Wayuu.C81_limits", "Wayuu.C81_strings", "Wayuu.C81_url", "Wayuu.C81_route"], "note": "Ends is the semantics of loops without a limit on rounds; these theorems also show that the limits on rounds in the model make no difference."},
  {"property": "C82", "status": "partial", "theorems": ["Wayuu.C82_refuted", "Wayuu.C82_reserved", "Wayuu.C82_partial"], "note": "False of the code: the announced length is reserved at once, up to 2 GiB (and twice more for multipart forms). C82_partial: bounded by what is sent if the client sends what it announces."},
  {"property": "C83", "status": "proved", "theorems": ["Wayuu.C83_text", "Wayuu.C83_distinct", "Wayuu.C83_clock"], "note": "The calendar of the specification counts seconds one by one from 1970; gmtime is shown to agree with it. C83_clock discharges the bound C77 assumes."},
  {"property": "C84", "status": "partial", "theorems": ["Wayuu.C84_refuted", "Wayuu.C84_text", "Wayuu.C84_partial", "Wayuu.C84_exact"], "note": "False of the code: the year has two digits, so stamps repeat after a century. C84_partial: within a century they tell the second. C84_exact: two seconds have the same stamp if and only if they differ in the century at most."},
  {"property": "C85", "status": "partial", "theorems": ["Wayuu.C85_refuted", "Wayuu.C85_partial", "Wayuu.C85_micros"], "note": "False of the code: the difference is taken in uint64_t, so a clock set back during a request gives about 1.8e16 seconds. C85_partial: otherwise exact to the millisecond, including the rounding of double and of %.3f; C85_micros: from microseconds."},
  {"property": "C86", "status": "partial", "theorems": ["Wayuu.C86_refuted", "Wayuu.C86_partial", "Wayuu.C86_quiet", "Wayuu.C86_start"], "note": "False of the code: gmtime returns a pointer to static storage shared by all threads, so a stamp can be a mixture of two times (a day off at midnight). C86_partial: right if all threads read the clock in the same second; C86_quiet: right if no other thread is in gmtime meanwhile."},
  {"property": "C87", "status": "partial", "theorems": ["Wayuu.C87_refuted", "Wayuu.C87_status", "Wayuu.C87_preflight", "Wayuu.C87_partial", "Wayuu.C87_mime", "Wayuu.C87_count"], "note": "False of the code: answers without JSON (404, 403, ...) lack the field (C87_status) and every OPTIONS request is refused (C87_preflight, for all of them). C87_partial, C87_mime: JSON responses of every status, streams and headers for other media types have it."},
  {"property": "C88", "status": "partial", "theorems": ["Wayuu.Reuse.C88_refuted", "Wayuu.Reuse.C88_unbounded", "Wayuu.Reuse.C88_partial", "Wayuu.Reuse.C88_drained"], "note": "False of the code: connection_close closes the descriptor before connection_del, so a new connection can get the number and lose its entry to the late connection_del (also that of a request that never had an entry). C88_unbounded: so any number of connections can be served with an empty table, whatever the limits. C88_partial: true of every run in which no number is given out while its removal is pending. C88_drained: in every run entries never outnumber the registered connections, and an idle server has an empty table."},
  {"property": "C89", "status": "partial", "theorems": ["Wayuu.C89_refuted", "Wayuu.C89_partial", "Wayuu.C89_unknown_partial", "Wayuu.C89_tolerated"], "note": "False of the code: an option without its value, words that are no options and all that follows -- are passed over and the server starts (C89_tolerated, for all of them). C89_partial: command lines that follow the usage mean the options written, however spread over words. C89_unknown_partial: an unknown option never starts the server."},
  {"property": "C90", "status": "partial", "theorems": ["Wayuu.LogFile.C90_refuted", "Wayuu.LogFile.C90_partial", "Wayuu.LogFile.C90_fatal", "Wayuu.LogFile.C90_unopened", "Wayuu.LogFile.C90_closed"], "note": "False of the code: log_close_file leaves LOG_FILE pointing to the closed stream, so every later message that passes the level is undefined behaviour, and so is closing twice or closing before any message (C90_closed). C90_partial: true of every sequence without log_close_file. C90_fatal: fatal messages are written before the process ends. C90_unopened: a file that cannot be opened ends the process with nothing lost."},
  {"property": "C91", "status": "partial", "theorems": ["Wayuu.RouterLife.C91_refuted", "Wayuu.RouterLife.C91_partial", "Wayuu.RouterLife.C91_freed"], "note": "False of the code: free_routing_table frees the matchers but leaves their number, so requests after it read freed memory, whatever is registered later, and a second call frees twice (C91_freed, for all such programs and requests). C91_partial: true of all programs that free only right before router_init."},
  {"property": "C92", "status": "partial", "theorems": ["Wayuu.C92_refuted", "Wayuu.C92_partial", "Wayuu.C92_missed", "Wayuu.C92_log"], "note": "False of the code: user-agent: curl is not found as User-Agent (strcmp). C92_partial: true if the client spells the name as the program does; C92_missed: all other spellings count as absent; C92_log: the access log then shows neither referer nor user agent."},
  {"property": "C93", "status": "partial", "theorems": ["Wayuu.C93_refuted", "Wayuu.C93_partial", "Wayuu.C93_cut", "Wayuu.C93_forged"], "note": "False of the code: what follows the first 1023 bytes of a line is read as a line of its own (C93_cut, for all lines), so that whoever chooses the end of a long referer chooses the session (C93_forged, for all tokens). C93_partial: true if all lines have at most 1023 bytes."},
  {"property": "C94", "status": "partial", "theorems": ["Wayuu.C94_refuted", "Wayuu.C94_partial", "Wayuu.C94_newline", "Wayuu.C94_long"], "note": "False of the code: two bytes are cut off whatever the line end, so a line that ends with LF loses its last byte (C94_newline, all lines), and of a longer line 1021 bytes are kept (C94_long). C94_partial: true of all lines that end with CR LF and have at most 1023 bytes."},
  {"property": "C95", "status": "partial", "theorems": ["Wayuu.Listen.C95_refuted", "Wayuu.Listen.C95_partial", "Wayuu.Listen.C95_port", "Wayuu.Listen.C95_word", "Wayuu.Listen.C95_name", "Wayuu.Listen.C95_octal", "Wayuu.Listen.C95_blank", "Wayuu.Listen.C95_parts", "Wayuu.Listen.C95_range", "Wayuu.Listen.C95_exact", "Wayuu.Listen.C95_silent"], "note": "False of the code: -p 70000 listens on 4464. C95_partial: true for dotted decimal addresses and ports from 1 to 65535. C95_port: other numbers count modulo 65536; C95_word: words stand for any free port; C95_name: host names stand for 255.255.255.255; C95_octal: leading zeros make a part octal; C95_blank: text after a blank is ignored; C95_parts: the last of one, two or three numbers fills the rest; C95_range: more or larger numbers stand for 255.255.255.255; C95_exact: every text given as the address, decimal, octal or hexadecimal, or none; C95_silent: with fatal messages silenced by log_set_level a refused address leads to listening on all addresses."},
  {"property": "C96", "status": "proved", "theorems": ["Wayuu.Startup.C96_up", "Wayuu.Startup.C96_down", "Wayuu.Startup.C96_hears"], "note": "For all settings with a dotted address and a port from 1 to 65535 (C95) and limits files as in C48. C96_hears: also for programs of one's own, whatever their settings and log level."},
  {"property": "C97", "status": "partial", "theorems": ["Wayuu.Embed.C97_refuted", "Wayuu.Embed.C97_exposed", "Wayuu.Embed.C97_home", "Wayuu.Embed.C97_partial", "Wayuu.Embed.C97_serves"], "note": "False of the code: only main.c sets the static root; without it GET /etc/passwd is answered with that file (C97_exposed: every readable file), and / is not answered (C97_home). C97_partial: true for programs that set WAYUU_STATIC_ROOT, WWW_INDEX and FAVICON_URL themselves; C97_serves: these serve the pages the settings name."},
  {"property": "C98", "status": "partial", "theorems": ["Wayuu.Net.C98_refuted", "Wayuu.Net.C98_partial", "Wayuu.Net.C98_killed", "Wayuu.Net.C98_short"], "note": "C98_partial: true of the standalone server with blocking sockets. False of programs of one's own: SIGPIPE is ignored by main.c only, so one client that leaves ends the process (C98_killed). C98_short: bytes that a write does not take are not sent again."},
  {"property": "C99", "status": "partial", "theorems": ["Wayuu.C99_refuted", "Wayuu.C99_partial", "Wayuu.C99_const", "Wayuu.C99_everything"], "note": "False of the code: GET /api/aDELETE:/user/5 runs the handler of DELETE:/user/{id}, because parameter templates are searched anywhere in METHOD:PATH. C99_partial: for paths without a colon (any query) the first registration meant for method and path is the one that runs. C99_const: handlers without parameter run for their method and path alone. C99_everything: every other handler, of whatever method, is run by a link, with a parameter that begins with a value of the choice of the author of the link."},
  {"property": "C100", "status": "partial", "theorems": ["Wayuu.Peer.C100_refuted", "Wayuu.Peer.C100_partial", "Wayuu.Peer.C100_stack", "Wayuu.Peer.C100_limits"], "note": "False of the code: the result of getpeername is ignored and the address structure is not initialised, so a client that has reset its connection is logged and counted under whatever address the stack holds. C100_partial: clients still connected; C100_stack: for the others the address logged is exactly the one on the stack; C100_limits: the same for the limit per address."},
  {"property": "C101", "status": "partial", "theorems": ["Wayuu.C101_refuted", "Wayuu.C101_partial", "Wayuu.C101_forged", "Wayuu.C101_upload", "Wayuu.C101_param"], "note": "False of the code: nothing is escaped, so the text hi&role=admin in one field counts as two fields. C101_forged: whatever fields a form has, one value can stand for all from the second on; C101_upload: two plain fields pass for an upload stored under any path; C101_param: the same through a path parameter. C101_partial: true of names without = and & and values without &."},
  {"property": "C102", "status": "partial", "theorems": ["Wayuu.C102_refuted", "Wayuu.C102_partial", "Wayuu.C102_unreachable", "Wayuu.C102_witness"], "note": "False of the code: URLs are not percent-decoded, and every URL beginning with /api goes to the API. C102_unreachable: no request at all outside /api can tell apart two trees that agree on names without white space and question mark, so no file with such a name (or in such a folder) is ever sent. C102_partial: true of names of letters, digits and -._~/ that do not begin with api."},
  {"property": "C103", "status": "partial", "theorems": ["Wayuu.C103_refuted", "Wayuu.C103_partial", "Wayuu.C103_evaded", "Wayuu.C103_slashless", "Wayuu.C103_slashless_witness", "Wayuu.C103_witness"], "note": "False of the code: rules are compared with the URL as it is sent, files are found by their path. C103_evaded: unless there is a rule for all of / (or for names beginning with a dot) every file can be fetched whatever the limits, by asking for /./NAME. C103_slashless: with any rules that begin with /, also one for all of /, every file can be fetched by leaving out the first slash. C103_partial: true of paths spelt the usual way (no empty, . or .. component) and rules without a question mark, whatever the queries."},
  {"property": "C104", "status": "partial", "theorems": ["Wayuu.C104_refuted", "Wayuu.C104_partial", "Wayuu.C104_request", "Wayuu.C104_headers", "Wayuu.C104_forged", "Wayuu.C104_witness"], "note": "False of the code: quotes are not escaped, neither in the request line nor in the headers. C104_forged: from the lines a client adds to the log any request, status, length, referer and user agent can be made to be read, whatever the response was. C104_partial: without quotes in what the client sent the line is read as it was meant, and in no other way; C104_headers: with quotes in the two headers only, request, status and length are still right. C104_request: the same for whole connections on a server set up well, from the bytes that came in to the bytes that were sent."},
  {"property": "C105", "status": "partial", "theorems": ["Wayuu.Mem.C105_refuted", "Wayuu.Mem.C105_partial", "Wayuu.Mem.C105_growth", "Wayuu.Mem.C105_denied"], "note": "False of the code: the 16 bytes allocated for the address of every connection are never released. C105_partial: exactly what is left behind after any sequence of connections (one block each, and what C73 says for the requests), and no bad release. C105_growth: at least one block per client and three per request; C105_denied: a client in the deny file costs one block per attempt, so the filter is no protection against it."},
  {"property": "C106", "status": "proved", "theorems": ["Wayuu.C106_extra", "Wayuu.C106_witness"], "note": "Equality of the outcomes, undefined behaviour included. Content-Length lines need not have a blank after the colon (less is read then, never more). User code is assumed not to read from the socket itself."},
  {"property": "C107", "status": "partial", "theorems": ["Wayuu.C107_refuted", "Wayuu.C107_partial"], "note": "False of the code: the connection is closed without notice after one answer. C107_partial: the second request is never looked at, everything is as if it had not been sent, the socket is closed once."},
  {"property": "C108", "status": "partial", "theorems": ["Wayuu.C108_refuted", "Wayuu.C108_partial", "Wayuu.C108_stale", "Wayuu.C108_last"], "note": "False of the code: a Cookie line shorter than 18 bytes makes a session of what an earlier line left in the buffer (C108_stale), and of X-Session and Authorization the last one counts (C108_last). C108_partial: all permutations of sections with at most one line for the session, a Cookie line of 18 bytes or more, and a value in X-Real-IP."},
  {"property": "C109", "status": "partial", "theorems": ["Wayuu.C109_refuted", "Wayuu.C109_partial", "Wayuu.C109_length", "Wayuu.C109_address", "Wayuu.C109_boundary"], "note": "False of the code: Content-Length:12 is read as 2 (C109_length: the first digit is lost), X-Real-IP loses its first character (C109_address), a multipart type is not recognised (C109_boundary). C109_partial: all other headers but Authorization and Cookie."},
  {"property": "C110", "status": "partial", "theorems": ["Wayuu.C110_refuted", "Wayuu.C110_partial", "Wayuu.C110_dead"], "note": "False of the code: a blank between the path and the comma becomes part of the path, and C110_dead: a rule whose path has white space in it never has any effect, whatever is sent. C110_partial: blanks around the three numbers do not matter."},
  {"property": "C111", "status": "partial", "theorems": ["Wayuu.C111_refuted", "Wayuu.C111_partial", "Wayuu.C111_beyond", "Wayuu.C111_witness"], "note": "False of the code: while a rule for /docs is exhausted every URL that begins with /docs is refused, such as /docs-old/a (C111_beyond, C111_witness). C111_partial: a rule whose path is not the beginning of the URL (up to case) makes no difference."},
  {"property": "C112", "status": "partial", "theorems": ["Wayuu.C112_refuted", "Wayuu.C112_unreadable", "Wayuu.C112_partial"], "note": "False of the code: return_file ignores that fopen failed, so a file the server may not read is answered with a 200 head and nothing else (C112_unreadable, for every such file). C112_partial: true of files that can be read."},
  {"property": "C113", "status": "partial", "theorems": ["Wayuu.Scarce.C113_refuted", "Wayuu.Scarce.C113_crash", "Wayuu.Scarce.C113_partial", "Wayuu.Scarce.C113_granted"], "note": "False of the code: the result of calloc for the body is not checked. C113_crash: every API request that announces a body for which there is no memory writes to address 0, before the body is sent and whether or not a route matches. C113_partial: if the blocks for the body are granted nothing changes; C113_granted: with memory for everything the whole server is that of the other properties. Only the blocks whose size the client chooses may be refused in the model."},
  {"property": "C114", "status": "partial", "theorems": ["Wayuu.C114_refuted", "Wayuu.C114_last", "Wayuu.C114_encoded", "Wayuu.C114_partial"], "note": "False of the code: the last Content-Length counts, of it the leading digits (sign allowed), of the number the lower 32 bits (C114_last); Transfer-Encoding is ignored (C114_encoded). C114_partial: if the length is clear the handler gets exactly the body and the rest stays unread."},
  {"property": "C115", "status": "proved", "theorems": ["Wayuu.C115_writes", "Wayuu.C115_nothing", "Wayuu.Whole.C115_run"], "note": "For every request that is handled without undefined behaviour. The log file is modelled apart. With the digest size of the library (64) every upload is undefined behaviour (C12), so that C115_nothing applies; with a size below 18 an upload stays on the disk even if no route takes the request (example). Whole.C115_run: the same for a whole run of the server with any clients and schedule."},
  {"property": "C116", "status": "partial", "theorems": ["Wayuu.C116_refuted", "Wayuu.C116_folder", "Wayuu.C116_read", "Wayuu.C116_write", "Wayuu.C116_partial"], "note": "False of the code: the message is put together in 120 bytes on the stack. C116_read, C116_write: exactly, -1 for paths of up to 98 resp. 87 bytes, a write past the array for any longer one. C116_folder: a folder that may be read is reported as a settings file without settings (fopen opens it, fgets fails). C116_partial: -1 from both for 87 bytes, if it is no folder."},
  {"property": "C117", "status": "partial", "theorems": ["Wayuu.C117_refuted", "Wayuu.C117_partial", "Wayuu.C117_lost"], "note": "False of the code: the file is emptied first and written in place. C117_lost: for every number j there is a moment at which a stop leaves just the first j settings and parse returns 0. C117_partial: what is read is always a first part of the new settings, of which the last may have a shorter value, or the old ones; a cut is noticed only if it falls into a key; other files stay."},
  {"property": "C118", "status": "partial", "theorems": ["Wayuu.C118_refuted", "Wayuu.C118_injects", "Wayuu.C118_long", "Wayuu.C118_partial"], "note": "False of the code: nothing is escaped. C118_injects: a value v, newline, k2=v2 is read back as two settings, for all k2 and v2. C118_long: a line of more than 510 bytes is handed over cut off and hides the settings after it. C118_partial: without newlines and within 510 bytes the keys are the ones saved, in order, each with the first part of its value (= separates parts)."},
  {"property": "C119", "status": "partial", "theorems": ["Wayuu.C119_refuted", "Wayuu.C119_exact", "Wayuu.C119_partial"], "note": "False of the code: the block has 1024 bytes whatever the items. C119_exact: the text is returned if it has less than 1024 bytes, and overflows the block otherwise, for all objects."},
  {"property": "C120", "status": "partial", "theorems": ["Wayuu.C120_refuted", "Wayuu.C120_partial", "Wayuu.C120_debug", "Wayuu.C120_defined"], "note": "False of the code with -d: C120_debug shows that for every request that reaches user code the token is in the log. C120_partial: at the default level nothing in the log depends on the tokens, for all requests whose other lines say something. C120_defined: the messages are defined for every request handled without fault."},
  {"property": "C121", "status": "partial", "theorems": ["Wayuu.C121_refuted", "Wayuu.C121_partial", "Wayuu.C121_handshake"], "note": "False of the code at the default level: the address after a blank X-Real-IP line is a line break, and the message for a failed handshake has one. C121_partial: all other requests at the default level."},
  {"property": "C122", "status": "partial", "theorems": ["Wayuu.C122_refuted", "Wayuu.C122_partial", "Wayuu.C122_left", "Wayuu.C122_answer"], "note": "False of the code: refused requests are closed with the header section unread, requests outside /api with their body unread. C122_partial and C122_answer give the exact condition, C122_left the unread bytes. The rule for close on a socket with unread input is a definition (Arrives)."},
  {"property": "C123", "status": "partial", "theorems": ["Wayuu.C123_refuted", "Wayuu.C123_partial", "Wayuu.C123_flood"], "note": "False of the code: the body is padded with its last byte up to the announced length, so with the boundary - a body of one byte leaves one warning for every four bytes announced (C123_flood; 99 bytes, 499999999 warnings). C123_partial: at most two messages or one for every three bytes announced, so the bound holds for bodies sent as announced."},
  {"property": "C124", "status": "partial", "theorems": ["Wayuu.C124_refuted", "Wayuu.C124_partial", "Wayuu.C124_responses", "Wayuu.C124_undefined"], "note": "False of the code: the line of the access log looks up Referer and User-Agent, and if one of them has 256 bytes or more its array holds no terminator and is read past its end. C124_undefined: this happens for every admitted request, whatever it asks for, unless user code answers without the response functions (none of which completes, C124_responses). C124_partial: all other headers may be of any length."},
  {"property": "C125", "status": "partial", "theorems": ["Wayuu.Steps.C125_refuted", "Wayuu.Steps.C125_partial", "Wayuu.Steps.C125_square", "Wayuu.Steps.C125_witness"], "note": "False of the code: the scratch block of the multipart parser is never cleared, so every later part (an empty one, too) costs a scan of the longest one before, and the bytes that are announced but not sent are asked for one by one and parsed as repetitions of the last one sent. C125_square: k bytes x followed by j announced dashes make at least k*((j-6)/4) steps; C125_witness: a request of k+102 bytes makes k*((1999999991-k)/4) steps. C125_partial: counting does not change what is computed; at most 2401*(n+1)^2 steps for n announced bytes, and at most n without a multipart content type."},
  {"property": "C126", "status": "partial", "theorems": ["Wayuu.C126_refuted", "Wayuu.C126_partial", "Wayuu.C126_request", "Wayuu.C126_exact", "Wayuu.C126_stream", "Wayuu.C126_json"], "note": "False of the code: lengths go through int. C126_request / C126_exact give the outcome for every size n, with r = n mod 2^32: memory past the file is read if r >= 2^31, a signed number overflows if head and r bytes reach 2^31, otherwise the first r bytes are sent with the status 200 (none at all of a file of 4 GiB). C126_partial: files below 2^31 - 1200 bytes are delivered whole and the logged length is right. C126_stream: streams are whole exactly below 2^31 bytes with the head, beyond that a signed number overflows. C126_json: a JSON text of n bytes is announced as n + 2 bytes and n mod 2^32 of them are sent."},
  {"property": "C127", "status": "partial", "theorems": ["Wayuu.C127_refuted", "Wayuu.C127_partial", "Wayuu.C127_fixed", "Wayuu.C127_matters"], "note": "False of the code: the first match wins, so GET:/user/{id} before GET:/user/list hides it. C127_partial: the order does not matter for requests that match one template at most, for every permutation. C127_fixed: never without parameters. C127_matters: any matching template can be the one chosen."},
  {"property": "C128", "status": "partial", "theorems": ["Wayuu.C128_refuted", "Wayuu.C128_partial", "Wayuu.C128_exact", "Wayuu.C128_tail", "Wayuu.C128_witness"], "note": "False of the code: C128_tail: PRE{name}TAIL is the same as a route that ends in a parameter called name}TAI; C128_exact gives the table entry for every template with a '{', also with bytes outside ASCII before it. C128_partial: ASCII before and nothing after the parameter."},
  {"property": "C129", "status": "partial", "theorems": ["Wayuu.Shared.C129_refuted", "Wayuu.Shared.C129_partial", "Wayuu.Shared.C129_table", "Wayuu.Shared.C129_clock", "Wayuu.Shared.C129_tokens", "Wayuu.Shared.C129_log"], "note": "False of the code: two requests race on live_connections (C129_table), on the buffer of gmtime (C129_clock), on the state of strtok (C129_tokens). C129_partial: for every level, start-up, number of workers, list of connections, course of requests and schedule there is no race on anything else - queue, limits, settings, address lists, level, routes - except on LOG_FILE in a program that switches off INFO and sets no log file, and there C129_log shows it."},
  {"property": "C130", "status": "partial", "theorems": ["Wayuu.C130_refuted", "Wayuu.C130_partial", "Wayuu.C130_smuggled"], "note": "False of the code: the method check is a prefix test and the router searches METHOD:PATH with strstr, so the method word itself can carry a route: DELETE:/user/5 /api HTTP/1.1 runs DELETE:/user/{id}. C130_smuggled: so for every parameter route and value, under the limits of the URL /api only. C130_partial: nothing runs for a method word without colon that does not end in one of the four methods, when the path has no colon."},
  {"property": "C131", "status": "proved", "theorems": ["Wayuu.Shared.C131_release", "Wayuu.Shared.C131_progress", "Wayuu.Shared.C131_end", "Wayuu.Shared.held_reached"], "note": "On the threads of Model/Shared.lean: the mutex is held for at most 13 accesses and pthread calls (an accept loop that writes a message included); every thread with something to do can go on after at most 13 steps of one other thread; from every state that can be reached all threads can be brought to the end of their programs. The wait for the condition is taken to end (C53 is about that). held_reached: there are states in which one thread has the mutex and another waits for it."},
  {"property": "C132", "status": "partial", "theorems": ["Wayuu.C132_refuted", "Wayuu.C132_partial", "Wayuu.C132_exact", "Wayuu.C132_bare", "Wayuu.C132_stale"], "note": "False of the code: without parameters the line end stays in content_type, so `application/json` never compares equal. Proved for lines in which the media type stands between one blank and a `;`. C132_exact and C132_bare: what is found in every other line that has a byte behind the colon; C132_stale: when the input ends at the colon, a piece of the header line before."},
  {"property": "C133", "status": "partial", "theorems": ["Wayuu.C133_refuted", "Wayuu.C133_partial", "Wayuu.C133_nested"], "note": "False of the code: `GET:/user/{id}` runs for `/user/5/keys`. Proved for paths with no more slashes than the prefix of any parameter route. C133_nested: every deeper path runs the handler, with the rest of the path, slashes included, as the value."},
  {"property": "C134", "status": "partial", "theorems": ["Wayuu.C134_refuted", "Wayuu.C134_partial", "Wayuu.C134_url", "Wayuu.C134_early"], "note": "False of the code: of `DELETE /api/user/12` only `DELETE /api/user/1` comes, and the handler is run with id=1. Proved for requests that end before the `/api` of the URL has come. C134_url: a request cut off in its URL runs the route that what came of the URL leads to, with no headers and no form. C134_early: a connection that ends before its second byte makes the server write outside of an array."},
  {"property": "C135", "status": "partial", "theorems": ["Wayuu.C135_refuted", "Wayuu.C135_partial", "Wayuu.C135_exact", "Wayuu.C135_authorization"], "note": "False of the code: the cookie `_ga=GA1.2.1111` of a statistics script makes the page set a session, and `Authorization: Basic x` is answered with the cookie `WSSESSION=ion: Basic x` (C135_authorization, for all values). Proved for header sections without Authorization and Cookie lines. C135_exact says which session is handed out for every section without a Cookie line shorter than 18 bytes."},
  {"property": "C136", "status": "partial", "theorems": ["Wayuu.C136_refuted", "Wayuu.C136_partial", "Wayuu.C136_exact"], "note": "False of the code: a name of 64 bytes (or a value of 256) is read past its array, and of more than 20 headers only the first 20 are shown. Proved for at most 20 headers that fit. C136_exact covers all header sections."},
  {"property": "C137", "status": "partial", "theorems": ["Wayuu.C137_refuted", "Wayuu.C137_partial", "Wayuu.C137_guard"], "note": "False of the code: for a header that is missing a string constant is returned, and freeing it is undefined. C137_partial says exactly when the result may be freed; C137_guard: not freeing empty texts is right in every case, and leaves a block behind exactly if the header is there without a value."},
  {"property": "C138", "status": "partial", "theorems": ["Wayuu.Whole.C138_refuted", "Wayuu.Whole.C138_partial", "Wayuu.Whole.C138_allow"], "note": "False of the code: a deny file that is there but cannot be read is taken for an empty one. Proved for a readable deny file of less than 8192 bytes; C138_allow: the same for who is not in the allow file (which fails closed)."},
  {"property": "C139", "status": "partial", "theorems": ["Wayuu.Whole.C139_refuted", "Wayuu.Whole.C139_partial"], "note": "False of the code: who finds the queue full is admitted but never served. Proved: at most once, only admitted clients, each with its own input and address, under every schedule; all of them if nobody found the queue full."},
  {"property": "C140", "status": "partial", "theorems": ["Wayuu.Whole.C140_refuted", "Wayuu.Whole.C140_partial", "Wayuu.Whole.C140_defined", "Wayuu.Whole.C140_crash", "Wayuu.Whole.C140_site"], "note": "False of the code: a full queue, and another client's request can be undefined behaviour (C140_crash). Proved: every visitor that is served gets exactly the page, under every schedule and whatever the other requests, and all are served if nobody found the queue full; C140_defined: serving a visitor is defined behaviour in every reachable state; C140_site: if neither the application nor other programs change anything on the way to the page, it need only be there when the server starts. Requests are handled one at a time in this model (see Model/Whole.lean); overlapping requests: C50, C56, C129."},
  {"property": "C141", "status": "partial", "theorems": ["Wayuu.Startup.C141_refuted", "Wayuu.Startup.C141_partial", "Wayuu.Startup.C141_count", "Wayuu.Startup.C141_idle"], "note": "False of the code: the results of pthread_create are ignored; refused every thread, the server says it is running, accepts connections and serves nobody (C141_idle: under every schedule). C141_partial: true as soon as one of the 200 threads was granted. C141_count: the pool has exactly as many workers as were granted, 200 only if all were."},
  {"property": "C142", "status": "partial", "theorems": ["Wayuu.Whole.C142_refuted", "Wayuu.Whole.C142_partial", "Wayuu.Whole.C142_once", "Wayuu.Whole.C142_defined"], "note": "False of the code: a client that finds the queue full is never served. C142_once: as claimed when nobody found the queue full, and at any time no call has been carried out twice or for a client that was not admitted. C142_partial: for one such client among clients that send anything. C142_defined: serving it is defined behaviour in every state the server can be in, if the handler is."},
  {"property": "C143", "status": "partial", "theorems": ["Wayuu.Whole.C143_refuted", "Wayuu.Whole.C143_partial", "Wayuu.Whole.C143_room", "Wayuu.Whole.C143_call"], "note": "False of the code: a client that finds the queue full is neither served nor closed. C143_partial: under every fair schedule each admitted client is served at some time or was one that found the queue full. C143_room: as claimed if the process may not have more client descriptors than the queue has places (1024; the usual limit of 1024 descriptors includes others), because then nobody finds the queue full. C143_call: what is done for a client that calls the API is to run its handler on its call."},
  {"property": "C144", "status": "proved", "theorems": ["Wayuu.Tls.C144", "Wayuu.Tls.C144_defined", "Wayuu.Tls.C144_own", "Wayuu.Tls.C144_order", "Wayuu.Tls.C144_rest"], "note": "Model/Tls.lean has the life of descriptors and TLS objects (who has which, what each operation reaches); what is read and written is left out. The removal from the table of connections after the close, which can hit somebody else's entry, is C88. That accept_request itself closes exactly once is C51."},
  {"property": "C145", "status": "partial", "theorems": ["Wayuu.C145_refuted", "Wayuu.C145_partial", "Wayuu.C145_exact", "Wayuu.C145_total"], "note": "False of the code: a client that closes without sending anything makes it write before an array. C145_total gives the exact condition for every sequence of bytes (`Bearable` in Spec/Announced.lean), C145_exact a shorter one for every request without an uploaded form in parts (and with a well-formed Content-Length, if any): at least two bytes before a NUL in the first line; for a supported method, the URL ends inside the array of the line; and, if the request is admitted, no header line overruns the session or boundary array, the first Referer and User-Agent among twenty headers have less than 256 bytes, the URL has between 1 and 50 pieces between question marks, and under /api method and path fit 255 bytes and a route with a parameter finds no form (or one with room behind a NUL). C145_partial: lines of less than 74 bytes are harmless. Forms in parts: as C72_exact says. The stack must hold something, see C55."},
  {"property": "C146", "status": "partial", "theorems": ["Wayuu.C146_refuted", "Wayuu.C146_partial", "Wayuu.C146_quiet", "Wayuu.C146_unique"], "note": "False of the code at the default level: the reasons are debug messages, nothing is written unless the server runs with -d (C146_quiet). C146_partial: with -d exactly one message, the reason. C146_unique: there is at most one reason, and none for a connection that is admitted."},
  {"property": "C147", "status": "partial", "theorems": ["Wayuu.Whole.C147_refuted", "Wayuu.Whole.C147_exact", "Wayuu.Whole.C147_partial"], "note": "False of the code: a client that closes its connection without a word is enough. C147_exact: a step is undefined exactly if it handles a connection whose client sends what is not Bearable (C145_total), or looks up an address in a list of 8192 bytes or more. C147_partial: if what the admitted clients send can be borne and the lists are small, no step is; clients that are turned away, the schedule, the number of connections and the descriptors do not matter."},
  {"property": "C148", "status": "proved", "theorems": ["Wayuu.C148_ending", "Wayuu.C148_total", "Wayuu.C148_alike", "Wayuu.leadsTo_unique"], "note": "LeadsTo (Spec/Ending.lean) is the specification of the outcome, without the model. C148_ending: every connection handled to its end ended as it says; C148_total: that is every connection whose bytes can be borne (C145_total: all others leave defined behaviour); leadsTo_unique: there is never a second outcome. What the client can be surprised by is part of the specification: values of short header lines taken from earlier lines, and a path whose folder page depends on what was on the stack."},
  {"property": "C149", "status": "proved", "theorems": ["Wayuu.Whole.C149_served", "Wayuu.Whole.C149_alike", "Wayuu.Whole.C149_start"], "note": "Whole server (Model/Whole.lean, where a request is handled in one step; what goes wrong when requests overlap is C50, C56 and what Model/Shared.lean and Model/Reuse.lean are about). The server has to be set up well before every step (AlwaysSound; user code and other programs may change the files). Clients that are not served: C139."},
  {"property": "C150", "status": "proved", "theorems": ["Wayuu.Overlap.alone_eq", "Wayuu.Overlap.C150_overlap", "Wayuu.Overlap.C150_alone", "Wayuu.Overlap.C150_undefined", "Wayuu.Overlap.C150_start", "Wayuu.Overlap.C150_descriptors"], "note": "Model/Overlap.lean: accept_request taken apart into six steps (alone_eq, C150_alone: run without a break they are accept_request). Two threads within one and the same step are not covered: that goes wrong in connection_add/connection_del (C50, C88), strtok (C56) and gmtime (C86), and is a data race (C129). C150_overlap and C150_undefined need the server to be set up well before every step; C150_start needs it at the start only, if user code and others leave the files alone."},
  {"property": "C151", "status": "proved", "theorems": ["Wayuu.C151_request", "Wayuu.Whole.C151_server", "Wayuu.Overlap.C151_overlap"], "note": "Extends C148, C149 and C150 by the access log. That user code takes no entries away is a hypothesis. Time stamp and response time are taken as given here (C83, C85, C86)."},
  {"property": "C152", "status": "partial", "theorems": ["Wayuu.Overlap.C152_refuted", "Wayuu.Overlap.C152_partial", "Wayuu.Overlap.C152_table", "Wayuu.Overlap.C152_bound", "Wayuu.Overlap.C152_drained"], "note": "False of the code: a connection is closed before its entry is removed, so the descriptor may be handed out again in between, and the request that is leaving (even one that never had an entry, because its method is unknown) removes the entry of the new one. With room for one request two are then in progress (C152_refuted, from the bytes of three clients). C152_partial and C152_table: true in all runs in which no descriptor is handed out again before the request that had it is through. C152_bound, C152_drained: in any run the table has no more entries for a descriptor than there are requests with it past their request line, and is free when there are none."},
  {"property": "C153", "status": "proved", "theorems": ["Wayuu.Full.C153_pool", "Wayuu.Full.C153_room"], "note": "Accept loop, filter, queue, workers and overlapping requests in one transition system (Model/Full.lean). That user code does not open or close descriptors of the server is a hypothesis. A request is the six steps of C150, each taken whole; two threads within one step are the subject of C50, C56, C86, C88 and C129."},
  {"property": "C154", "status": "proved", "theorems": ["Wayuu.Full.C154_answer", "Wayuu.Full.C154_start", "Wayuu.Full.C154_rest", "Wayuu.Full.C154_full", "Wayuu.Full.C154_progress", "Wayuu.Full.C154_undefined"], "note": "The hypotheses are those of C148 and C150 (the setup is sound whenever a request is under way, user code keeps to its descriptors). Clients that found the queue full are not told: their connection stays open (C53). Steps are those of Model/Overlap.lean and Model/Queue.lean. A request is the six steps of C150, each taken whole; two threads within one step are the subject of C50, C56, C86, C88 and C129."},
  {"property": "C155", "status": "proved", "theorems": ["Wayuu.Full.C155_log", "Wayuu.Full.C155_idle", "Wayuu.Full.C155_filter"], "note": "Transfers C46, C151 and C152_drained to the server with all its threads (Model/Full.lean). Hypotheses as in C151 and C154. That connections which found the queue full stay open is what the code does (C53). A request is the six steps of C150, each taken whole; two threads within one step are the subject of C50, C56, C86, C88 and C129."},
  {"property": "C156", "status": "partial", "theorems": ["Wayuu.Full.C156_partial", "Wayuu.Full.C156_room", "Wayuu.Full.C156_answer", "Wayuu.Full.C156_refuted"], "note": "Refuted: a client that finds the queue full is never looked at. Proved for everybody else (C156_partial: through at some time, or turned away and never read from), without a full queue if the process may not have more descriptors than the queue has places (C156_room), and with what the client gets (C156_answer, by C154_start). Unlike C143 handling a connection is not one step: fairness is only assumed of single steps, and that a worker comes back from a request is proved. Each of the six steps of a request (C150) is taken to end: a client that sends nothing and stays connected is not modelled."},
  {"property": "C157", "status": "partial", "theorems": ["Wayuu.C157_partial", "Wayuu.C157_quiet", "Wayuu.C157_defined", "Wayuu.C157_refuted"], "note": "Refuted at the default level, where nothing is written: an administrator sees unknown API URLs only with -d. Proved exactly as claimed with -d (C157_partial); C157_defined: whenever the router has done its work there are such messages."},
  {"property": "C158", "status": "partial", "theorems": ["Wayuu.C158_partial", "Wayuu.C158_unknown", "Wayuu.C158_quiet", "Wayuu.C158_usage", "Wayuu.C158_refuted"], "note": "Refuted: `wayuu -p -v` takes -v for the port and starts the server on port 0. Proved as claimed if the words before follow the usage and can be carried out (C158_partial, whatever follows), with exactly one line on standard error for each root folder named before. C158_unknown, C158_quiet: the other two parts, for command lines that follow the usage otherwise. C158_usage: the usage leaves out -h. terminal_start: the loop with its output comes to the same end as the one of C61 and C89."},
  {"property": "C159", "status": "partial", "theorems": ["Wayuu.C159_partial", "Wayuu.C159_joined", "Wayuu.C159_exact", "Wayuu.C159_refuted"], "note": "Refuted: strtok passes over empty elements, of a,,b the one in the middle is lost. C159_partial: both ways without empty elements. C159_joined: for every list the elements that are not empty come back, also for delimiters of several bytes. C159_exact: joining the parts gives the text back exactly if no delimiter is first, last or next to another one."},
  {"property": "C160", "status": "proved", "theorems": ["Wayuu.Hook.C160_calls", "Wayuu.Hook.C160_open", "Wayuu.Hook.C160_kept", "Wayuu.Hook.C160_all", "Wayuu.Hook.C160_defined", "Wayuu.Hook.C160_http"], "note": "C160_calls: who is called, for whom, with what and in which order. C160_open: the descriptor at the call. C160_kept: afterwards, until the program closes it. C160_all: when nothing is left to do, everybody who passed the filter has had a call or found the queue full. C160_defined: no step is undefined. C160_http: with NULL it is the process of Model/Server.lean."},
  {"property": "C161", "status": "partial", "theorems": ["Wayuu.Disk.C161_partial", "Wayuu.Disk.C161_silent", "Wayuu.Disk.C161_form", "Wayuu.Disk.C161_settings", "Wayuu.Disk.C161_refuted"], "note": "Refuted: the result of fwrite is kept in a size_t and compared with < 0, and write_conf looks at no result. C161_partial: with room for the bytes all is as on a disk without limit. Without: C161_silent (write_file leaves the part that was taken under the name and logs no error), C161_form (the handler of an upload is told the same as if all was stored), C161_settings (write_conf returns 0 whatever was taken; read back are the first settings, of which the last may have a shorter value, and every number of them is possible)."},
  {"property": "C162", "status": "partial", "theorems": ["Wayuu.Changing.C162_partial", "Wayuu.Changing.C162_exact", "Wayuu.Changing.C162_gone", "Wayuu.Changing.C162_still", "Wayuu.Changing.C162_refuted"], "note": "Refuted: a file that is cut after its length was taken is padded with zero bytes up to the old length (the result of fread is not looked at). C162_partial: files that are replaced by renaming or only added to are delivered as they were when the length was taken. C162_exact: what is sent, byte by byte, for every change. C162_gone: a file removed between being found and being opened gives a 200 head and nothing. C162_still: on a tree at rest everything is as in the other properties. A name that becomes a folder between stat and fopen is excluded (its length depends on the file system)."},
  {"property": "C163", "status": "proved", "theorems": ["Wayuu.Rotate.C163_rotated", "Wayuu.Rotate.C163_settled"], "note": "The file can be opened and the disk takes the lines (see C164 for disks that do not). That each line is one write is C77_short."},
  {"property": "C164", "status": "partial", "theorems": ["Wayuu.Rotate.C164_partial", "Wayuu.Rotate.C164_exact", "Wayuu.Rotate.C164_refuted"], "note": "Refuted: of a line that is cut the line break is missing, and the next line, which the disk takes whole, continues it. C164_partial: as long as lines are taken whole or not at all, files are sequences of whole lines. C164_exact: what the files hold for any numbers of bytes taken, renamings and failures to open the file."},
  {"property": "C165", "status": "partial", "theorems": ["Wayuu.LogRotate.C165_partial", "Wayuu.LogRotate.C165_follows", "Wayuu.LogRotate.C165_kept", "Wayuu.LogRotate.C165_refuted"], "note": "Refuted: the file is opened once, so the messages after the renaming follow it (C165_follows: all of them, and nothing is under the old name). C165_partial: it holds if the program calls log_set_file again after the renaming. C165_kept: whatever is set and renamed, each message that passes the level is in exactly one place, and each place has its messages in order."},
  {"property": "C166", "status": "partial", "theorems": ["Wayuu.LogRotate.C166_partial", "Wayuu.LogRotate.C166_exact", "Wayuu.LogRotate.C166_refuted"], "note": "Refuted: log_set_file does not close the stream it replaces, and with no descriptor left it ends the program. C166_exact: the program ends with failure if and only if the file is set more often than streams can be open (without log_close_file and fatal messages)."},
  {"property": "C167", "status": "partial", "theorems": ["Wayuu.C167_partial", "Wayuu.C167_handlers", "Wayuu.C167_limits", "Wayuu.C167_index", "Wayuu.C167_refuted"], "note": "False of the code: the URL is taken as a path. C167_handlers: no handler ever runs for such a request. C167_index: a GET request gets the site index whatever it asks for. C167_limits: no rule that begins with / concerns it. C167_partial: right for the front page, which is what the site index is."}
]}
