#!/usr/bin/env python3
"""Writes MANIFEST.json. One call of p() per property."""
import json, os
claims = []
def p(prop, status, theorems, note=""):
    claims.append({"property": prop, "status": status,
                   "theorems": ["Wayuu." + t for t in theorems.split()], "note": note})

p("C01", "proved", "C01_trim C01_strip_unique")
p("C02", "proved", "C02_found C02_absent C02_rebuild")
p("C03", "proved", "C03_split_once C03_any C03_whole")
p("C04", "partial", "C04_refuted C04_partial C04_colon",
  "False of the code: the delimiter argument is ignored and ':' is always used. The partial theorem covers ':'; C04_colon: whatever delimiter is passed, the split is at the first colon.")
p("C05", "proved", "C05_split C05_any C05_over", "C05_over shows that the limit of 50 tokens is sharp. C05_any: parts of any length and number; one of 1023 bytes or more is cut and not terminated.")
p("C06", "partial", "C06_refuted C06_partial C06_exact C06_agree C06_join C06_join_nulls C06_join_empty C06_join_ends",
  "False of the code from 2 GiB on: the size of the block is an int (C06_refuted: two strings of 1 GiB; C06_exact: the limit). Below that everything holds (C06_partial, C06_agree; C06_join and the others take the size as unbounded).")
p("C07", "proved", "C07_startswith C07_startswithany")
p("C08", "proved", "C08_find C08_window C08_safe")
p("C09", "proved", "C09_chop")
p("C10", "proved", "C10_isalnum")
p("C11", "proved", "C11_md5sum C11_md5sum_empty C11_injective",
  "MD5 itself is an arbitrary function to 16 bytes.")

p("C13", "partial", "C13_refuted C13_partial C13_exact C13_forged C13_empty C13_limit C13_agree",
  "False of the code: strings are not escaped. C13_exact: the result is the array if and only if no string has a quote, a backslash or a control byte; C13_forged: one string can be taken for any array of strings. Those take the size of the block as unbounded; it is an int, which agrees below 2 GiB (C13_agree) and fails from there on (C13_limit).")
p("C14", "proved", "C14_ints C14_empty")
p("C15", "partial", "C15_refuted C15_refuted_escape C15_partial C15_int_partial C15_bool_partial C15_uint32_partial C15_exact C15_key_exact C15_forged",
  "False of the code: a NULL value is dereferenced and nothing is escaped. C15_exact, C15_key_exact: right if and only if key and value need no escaping; C15_forged: a value can be taken for a further member.")
p("C16", "partial", "C16_refuted C16_partial C16_exact C16_entities C16_valid C16_nulls",
  "False of the code from 2 GiB on: join keeps the size of its block in an int (C16_refuted, C16_exact). Below that everything holds (C16_partial; C16_entities, C16_valid and C16_nulls take the size as unbounded).")
p("C17", "partial", "C17_refuted C17_refuted_crash C17_partial C17_none_partial C17_crash_partial C17_exact",
  "False of the code: values are cut at a second '=', '=v' is read as a key and a line of '=' dereferences NULL. C17_exact: what every line gives.")
p("C18", "partial", "C18_refuted C18_overflow C18_partial C18_elements_exist",
  "False of the code: more than 20 elements write past the item. Proved for up to 20.")
p("C19", "proved", "C19_roundtrip")
p("C20", "partial", "C20_refuted C20_partial C20_unreadable_partial C20_exact C20_total",
  "False of the code for malformed lines. Proved for every file of well-formed lines, up to and including the first line without '='. C20_exact: what every file gives (C20_total: none is left out): pieces of 511 bytes, an empty line ends the reading, = separates any number of parts of which two are used.")
p("C21", "proved", "C21_write_parse C21_serializer C21_values C21_over", "C21_values: from the constructor new_conf_item_with_values on. C21_over: what happens to a 21st item.")
p("C22", "proved", "C22_found C22_absent")
p("C23", "proved", "C23_no_bad_free", "Blocks, literals and frees are explicit in Model/ConfHeap.lean.")

p("C24", "proved", "C24_resolve C24_register", "Templates whose prefix is ASCII.")
p("C25", "proved", "C25_dispatch C25_reject C25_const", "'Matches' for a parameter route means containing its prefix; see C28.")
p("C26", "proved", "C26_filter")
p("C27", "partial", "C27_refuted C27_partial C27_body",
  "False of the code: appending to a body overruns its block. C27_partial is the exact behaviour.")
p("C28", "partial", "C28_refuted C28_witness C28_partial C28_anywhere", "False of the code: strstr finds the prefix anywhere. C28_anywhere: wherever it is found, the handler runs with what follows the first |PREFIX| bytes of METHOD:PATH as its parameter.")
p("C29", "partial", "C29_refuted C29_over C29_partial", "False of the code: POST with a path of 250 bytes.")
p("C30", "proved", "C30_status C30_unsupported C30_over C30_helpers response_unambiguous",
  "C30_over shows that longer messages overflow the buffer.")
p("C31", "proved", "C31_json C31_helpers C31_list", "Payloads below 2 GiB (the length is passed as an int).")
p("C32", "proved", "C32_status C32_json C32_helpers C32_stream C32_file", "Messages of up to 943 bytes, texts and files below 2 GiB; C126 says what becomes of larger files.")
p("C33", "proved", "C33_stream C33_response C33_nul", "C33_nul shows that the condition on NUL bytes is needed.")
p("C34", "partial", "C34_refuted C34_partial C34_wrong C34_mime_partial",
  "False of the code: the csv test is inverted. C34_wrong gives the exact behaviour in the failing cases.")
p("C35", "partial", "C35_refuted C35_never C35_partial C35_missing_partial",
  "False of the code: the status line is sent twice for every file.")
p("C36", "partial", "C36_refuted C36_refuted_empty C36_runs_partial C36_partial C36_uninit C36_over C36_exact",
  "False of the code for empty paths and for queries with a second '?'. C36_runs_partial is the exact behaviour. C36_exact: for a URL with a path and a query part the answer is that path and that query exactly when the path is not empty and the query holds no further question mark. C36_over: more than 50 pieces between question marks overrun the array of pieces, whatever the bytes.")
p("C37", "partial", "C37_refuted C37_partial C37_exact C37_long", "False of the code for values of 256 bytes or more and names of 64 or more. C37_exact and C37_long give the outcome in every case: only the value asked for, or a stored name with the same first 64 bytes as a long name asked for, leads past an array; the other headers may be of any length.")
p("C38", "partial", "C38_refuted C38_uninit C38_partial C38_forged",
  "False of the code: empty text or description or an unknown status use uninitialised pointers. C38_forged: what texts that need escaping can be taken for.")
p("C39", "partial", "C39_refuted C39_stored C39_over C39_text C39_partial C39_exact C39_forged C39_response",
  "False of the code exactly for texts that need escaping (C39_exact); C39_forged: a message can be taken for a further member. Storage and memory safety are proved for all texts.")
p("C40", "proved", "C40_get_line C40_unique")
p("C41", "proved", "C41_method C41_short", "C41_short shows that the bound of two bytes is needed.")
p("C46", "proved", "C46_filter", "Matching is by occurrence as a substring of a line, which is what the property states.")
p("C47", "partial", "C47_refuted C47_partial", "False of the code: an address that is part of a listed one passes.")
p("C48", "proved", "C48_rules C48_unique C48_over", "C48_over shows that the bound on paths is needed.")
p("C49", "partial", "C49_refuted C49_partial C49_decision C49_attained",
  "False of the code: one connection more than the maximum is accepted. C49_partial and C49_attained give the exact bound.")
p("C50", "partial", "C50_refuted C50_partial C50_unbounded C50_lost",
  "False of the code: validation and registration are not atomic. C50_partial covers schedules where they do not overlap.")
p("C51", "proved", "C51_closed C51_helpers")
p("C52", "proved", "C52_fifo C52_bounded C52_safe C52_exclusive", "Any capacity above 0 and any number of workers; the server uses 1024 and 200.")
p("C53", "proved", "C53_woken C53_drained C53_progress")
p("C56", "partial", "C56_refuted C56_partial C56_path C56_steals C56_freed", "False of the code: strtok keeps its position in one place for all threads. C56_freed: for any two requests there is a schedule under which the one reads the freed copy of the other's URL (undefined behaviour). C56_steals: for all URLs with queries there is a schedule under which one request is carried out with the query of another. C56_path: under every schedule without undefined behaviour the path is the own one, and what is taken for the query is a whole piece of some request. A call of strtok counts as one step.")
p("C57", "proved", "C57_level C57_range C57_set")
p("C58", "partial", "C58_status C58_json C58_stream C58_file C58_witness C58_refuted C58_request C58_line_partial",
  "False of the code: an X-Real-IP header without a value makes the address a line break, which splits the line. C58_request: every request none of whose X-Real-IP lines is empty adds single lines only, whatever else the client sends.")
p("C59", "partial", "C59_refuted C59_write_partial C59_unterminated C59_negative C59_read C59_read_over C59_find_partial C59_find_over C59_round_partial",
  "False of the code: write_file reads past data without a terminator. The other parts are exact.")
p("C60", "proved", "C60_createdir")
p("C66", "partial", "C66_refuted C66_partial C66_leak", "False of the code: a socket that finds the queue full is dropped without being closed.")
p("C67", "partial", "C67_refuted C67_unused", "False of the code: max_seconds is never used; C67_unused shows that it cannot influence anything.")
p("C42", "proved", "C42_stored C42_lookup", "C42_stored also says what becomes of longer names and values.")
p("C43", "partial", "C43_refuted C43_partial C43_bounded C43_cookie C43_authorization C43_exact C43_anycookie",
  "False of the code for Authorization headers and cookies; C43_authorization and C43_cookie give what is stored instead; C43_exact: for all sections (Cookie lines of 18 bytes or more), as the user code finds it; C43_anycookie: cookies of any name become the session.")
p("C44", "partial", "C44_refuted C44_partial C44_nobody C44_short C44_glued",
  "False of the code without a space after the colon; C44_glued: then the first digit is not looked at, and the number of bytes read is what the other digits say. C44_short gives the form when the input ends early.")
p("C63", "proved", "C63_request")
p("C64", "proved", "C64_api C64_static C64_method")
p("C65", "proved", "C65_admission C65_recorded")
p("C68", "partial", "C68_refuted C68_partial", "False of the code when there is nothing to join; C68_partial gives the exact condition.")
p("C69", "partial", "C69_refuted C69_defined C69_partial", "False of the code; C69_defined gives the exact condition.")
p("C54", "partial", "C54_refuted C54_leak C54_everything C54_partial", "False of the code: \"..\" in a path leaves the root; C54_everything: so every file of the machine that the server may read is sent to whoever asks. C54_partial covers every path without such a component.")
p("C55", "partial", "C55_refuted C55_partial C55_rewritten C55_stack",
  "False of the code: the test for a final '/' looks at an uninitialised array. C55_stack says what happens for its other contents.")
p("C62", "partial", "C62_refuted C62_partial C62_silent", "False of the code: nothing is sent for a missing file if there is no site index (C62_silent, for all of them). C62_partial: with a site index everything is answered.")
p("C61", "partial", "C61_refuted C61_partial C61_static C61_launch C61_exit",
  "False of the code: the default address is 127.0.0.1 instead of 0.0.0.0, and -r does not move the static content.")
p("C45", "partial", "C45_refuted C45_partial C45_general",
  "False of the code: names are cut at the first byte outside 35..127, and a value containing '; filename=\"' is taken for a file. C45_general covers every other body.")

p("C12", "partial", "C12_refuted C12_overflow C12_partial",
  "refuted: with the library's maximum digest size, 64, md5sum writes 129 bytes into the 36 byte array of save_tmp_file, so receiving any file is undefined behaviour (C12_overflow, for every form with a file, or with a field that contains the file name mark). C12_partial: with a maximum digest size of 16 or 17, where the array is large enough, the file is stored intact under the promised name, nothing else in the file system changes, and the form string is as promised (one file per form; names of bytes 35 to 127).")
p("C70", "partial", "C70_refuted C70_partial", "False of the code: a quoted boundary is not understood and the handler gets an empty form. C70_partial covers plain boundaries at the end of their line; names and values as in C45_general.")
p("C71", "partial", "C71_refuted C71_partial C71_cookie", "False of the code: the line end of a session cookie is kept and ends the header early. C71_partial covers requests without cookies, C71_cookie says what is sent otherwise.")
p("C72", "partial", "C72_refuted C72_partial C72_quotes C72_truncated C72_short C72_early C72_exact C72_iff", "False of the code: a part that ends at its empty line (C72_truncated), a short part behind a field (C72_short, for example a delimiter after the closing one) and a name behind the empty line (C72_early) leave the arrays, whatever else the body holds. C72_partial: bodies of fields and of parts that name no field, as long as these are at least as long as all parts before them or contain a NUL; C72_quotes: every body without a quotation mark, whatever its delimiters. C72_exact and C72_iff: for every body and delimiter, exactly when the arrays are left and otherwise the exact form (`FormOf` in Spec/PartsFit.lean). Files: C12.")
p("C73", "partial", "Mem.C73_refuted Mem.C73_partial Mem.C73_grows Mem.C73_query", "False of the code: only the request structure is freed. C73_partial gives the exact number of blocks every kind of request leaves, and that nothing is freed twice or wrongly; C73_grows the growth over any number of requests.")
p("C74", "proved", "C74_fits C74_unique C74_decision")
p("C75", "partial", "C75_refuted C75_partial C75_helpers", "False of the code: an uninitialised array makes the answer for a path depend on what earlier calls left on the stack. C75_partial: with equal stack contents each request gets what it would get alone. Handlers must not look at earlier output (C75_helpers: the response helpers do not).")
p("C76", "partial", "C76_refuted C76_partial C76_kept C76_line", "False of the code: a message is written with three calls of fprintf, between which other threads write. C76_partial: schedules that keep messages apart give whole lines. C76_kept: under every schedule no part of a message is lost, repeated or reordered within its thread.")
p("C77", "proved", "C77_lines C77_short C77_helpers", "Time stamp and response time of at most 63 bytes each (both are shorter); user code writes lines with the helpers of the library (C77_helpers).")
p("C78", "partial", "C78_refuted C78_overload C78_error C78_partial C78_lost", "False of the code: sockets turned away are never closed, and when accept fails the process exits; so do other errors of accept. C78_partial: the descriptors in use are bounded by queue, pool and the sockets turned away so far, and the process goes on while none has been.")
p("C79", "proved", "C79_apart")
p("C80", "partial", "C80_refuted C80_blocked C80_partial", "False of the code: there are no time-outs, so one silent client more than there are workers stops the service (C80_blocked, for every size). C80_partial: with fewer silent clients than workers everybody else is served.")
p("C81", "proved", "C81_headers C81_form C81_stream C81_conf C81_limits C81_strings C81_url C81_route", "Ends is the semantics of loops without a limit on rounds; these theorems also show that the limits on rounds in the model make no difference.")
p("C82", "partial", "C82_refuted C82_reserved C82_partial", "False of the code: the announced length is reserved at once, up to 2 GiB (and twice more for multipart forms). C82_partial: bounded by what is sent if the client sends what it announces.")
p("C83", "proved", "C83_text C83_distinct C83_clock", "The calendar of the specification counts seconds one by one from 1970; gmtime is shown to agree with it. C83_clock discharges the bound C77 assumes.")
p("C84", "partial", "C84_refuted C84_text C84_partial C84_exact", "False of the code: the year has two digits, so stamps repeat after a century. C84_partial: within a century they tell the second. C84_exact: two seconds have the same stamp if and only if they differ in the century at most.")
p("C85", "partial", "C85_refuted C85_partial C85_micros", "False of the code: the difference is taken in uint64_t, so a clock set back during a request gives about 1.8e16 seconds. C85_partial: otherwise exact to the millisecond, including the rounding of double and of %.3f; C85_micros: from microseconds.")
p("C86", "partial", "C86_refuted C86_partial C86_quiet C86_start", "False of the code: gmtime returns a pointer to static storage shared by all threads, so a stamp can be a mixture of two times (a day off at midnight). C86_partial: right if all threads read the clock in the same second; C86_quiet: right if no other thread is in gmtime meanwhile.")
p("C87", "partial", "C87_refuted C87_status C87_preflight C87_partial C87_mime C87_count", "False of the code: answers without JSON (404, 403, ...) lack the field (C87_status) and every OPTIONS request is refused (C87_preflight, for all of them). C87_partial, C87_mime: JSON responses of every status, streams and headers for other media types have it.")
p("C88", "partial", "Reuse.C88_refuted Reuse.C88_unbounded Reuse.C88_partial Reuse.C88_drained", "False of the code: connection_close closes the descriptor before connection_del, so a new connection can get the number and lose its entry to the late connection_del (also that of a request that never had an entry). C88_unbounded: so any number of connections can be served with an empty table, whatever the limits. C88_partial: true of every run in which no number is given out while its removal is pending. C88_drained: in every run entries never outnumber the registered connections, and an idle server has an empty table.")
p("C89", "partial", "C89_refuted C89_partial C89_unknown_partial C89_tolerated", "False of the code: an option without its value, words that are no options and all that follows -- are passed over and the server starts (C89_tolerated, for all of them). C89_partial: command lines that follow the usage mean the options written, however spread over words. C89_unknown_partial: an unknown option never starts the server.")
p("C90", "partial", "LogFile.C90_refuted LogFile.C90_partial LogFile.C90_fatal LogFile.C90_unopened LogFile.C90_closed", "False of the code: log_close_file leaves LOG_FILE pointing to the closed stream, so every later message that passes the level is undefined behaviour, and so is closing twice or closing before any message (C90_closed). C90_partial: true of every sequence without log_close_file. C90_fatal: fatal messages are written before the process ends. C90_unopened: a file that cannot be opened ends the process with nothing lost.")
p("C91", "partial", "RouterLife.C91_refuted RouterLife.C91_partial RouterLife.C91_freed", "False of the code: free_routing_table frees the matchers but leaves their number, so requests after it read freed memory, whatever is registered later, and a second call frees twice (C91_freed, for all such programs and requests). C91_partial: true of all programs that free only right before router_init.")
p("C92", "partial", "C92_refuted C92_partial C92_missed C92_log", "False of the code: user-agent: curl is not found as User-Agent (strcmp). C92_partial: true if the client spells the name as the program does; C92_missed: all other spellings count as absent; C92_log: the access log then shows neither referer nor user agent.")
p("C93", "partial", "C93_refuted C93_partial C93_cut C93_forged", "False of the code: what follows the first 1023 bytes of a line is read as a line of its own (C93_cut, for all lines), so that whoever chooses the end of a long referer chooses the session (C93_forged, for all tokens). C93_partial: true if all lines have at most 1023 bytes.")
p("C94", "partial", "C94_refuted C94_partial C94_newline C94_long", "False of the code: two bytes are cut off whatever the line end, so a line that ends with LF loses its last byte (C94_newline, all lines), and of a longer line 1021 bytes are kept (C94_long). C94_partial: true of all lines that end with CR LF and have at most 1023 bytes.")
p("C95", "partial", "Listen.C95_refuted Listen.C95_partial Listen.C95_port Listen.C95_word Listen.C95_name Listen.C95_octal Listen.C95_blank Listen.C95_parts Listen.C95_range Listen.C95_exact Listen.C95_silent", "False of the code: -p 70000 listens on 4464. C95_partial: true for dotted decimal addresses and ports from 1 to 65535. C95_port: other numbers count modulo 65536; C95_word: words stand for any free port; C95_name: host names stand for 255.255.255.255; C95_octal: leading zeros make a part octal; C95_blank: text after a blank is ignored; C95_parts: the last of one, two or three numbers fills the rest; C95_range: more or larger numbers stand for 255.255.255.255; C95_exact: every text given as the address, decimal, octal or hexadecimal, or none; C95_silent: with fatal messages silenced by log_set_level a refused address leads to listening on all addresses.")
p("C96", "proved", "Startup.C96_up Startup.C96_down Startup.C96_hears", "For all settings with a dotted address and a port from 1 to 65535 (C95) and limits files as in C48. C96_hears: also for programs of one's own, whatever their settings and log level.")
p("C97", "partial", "Embed.C97_refuted Embed.C97_exposed Embed.C97_home Embed.C97_partial Embed.C97_serves", "False of the code: only main.c sets the static root; without it GET /etc/passwd is answered with that file (C97_exposed: every readable file), and / is not answered (C97_home). C97_partial: true for programs that set WAYUU_STATIC_ROOT, WWW_INDEX and FAVICON_URL themselves; C97_serves: these serve the pages the settings name.")
p("C98", "partial", "Net.C98_refuted Net.C98_partial Net.C98_killed Net.C98_short", "C98_partial: true of the standalone server with blocking sockets. False of programs of one's own: SIGPIPE is ignored by main.c only, so one client that leaves ends the process (C98_killed). C98_short: bytes that a write does not take are not sent again.")
p("C99", "partial", "C99_refuted C99_partial C99_const C99_everything", "False of the code: GET /api/aDELETE:/user/5 runs the handler of DELETE:/user/{id}, because parameter templates are searched anywhere in METHOD:PATH. C99_partial: for paths without a colon (any query) the first registration meant for method and path is the one that runs. C99_const: handlers without parameter run for their method and path alone. C99_everything: every other handler, of whatever method, is run by a link, with a parameter that begins with a value of the choice of the author of the link.")
p("C100", "partial", "Peer.C100_refuted Peer.C100_partial Peer.C100_stack Peer.C100_limits", "False of the code: the result of getpeername is ignored and the address structure is not initialised, so a client that has reset its connection is logged and counted under whatever address the stack holds. C100_partial: clients still connected; C100_stack: for the others the address logged is exactly the one on the stack; C100_limits: the same for the limit per address.")
p("C101", "partial", "C101_refuted C101_partial C101_forged C101_upload C101_param", "False of the code: nothing is escaped, so the text hi&role=admin in one field counts as two fields. C101_forged: whatever fields a form has, one value can stand for all from the second on; C101_upload: two plain fields pass for an upload stored under any path; C101_param: the same through a path parameter. C101_partial: true of names without = and & and values without &.")
p("C102", "partial", "C102_refuted C102_partial C102_unreachable C102_witness", "False of the code: URLs are not percent-decoded, and every URL beginning with /api goes to the API. C102_unreachable: no request at all outside /api can tell apart two trees that agree on names without white space and question mark, so no file with such a name (or in such a folder) is ever sent. C102_partial: true of names of letters, digits and -._~/ that do not begin with api.")
p("C103", "partial", "C103_refuted C103_partial C103_evaded C103_slashless C103_slashless_witness C103_witness", "False of the code: rules are compared with the URL as it is sent, files are found by their path. C103_evaded: unless there is a rule for all of / (or for names beginning with a dot) every file can be fetched whatever the limits, by asking for /./NAME. C103_slashless: with any rules that begin with /, also one for all of /, every file can be fetched by leaving out the first slash. C103_partial: true of paths spelt the usual way (no empty, . or .. component) and rules without a question mark, whatever the queries.")
p("C104", "partial", "C104_refuted C104_partial C104_request C104_headers C104_forged C104_witness", "False of the code: quotes are not escaped, neither in the request line nor in the headers. C104_forged: from the lines a client adds to the log any request, status, length, referer and user agent can be made to be read, whatever the response was. C104_partial: without quotes in what the client sent the line is read as it was meant, and in no other way; C104_headers: with quotes in the two headers only, request, status and length are still right. C104_request: the same for whole connections on a server set up well, from the bytes that came in to the bytes that were sent.")
p("C105", "partial", "Mem.C105_refuted Mem.C105_partial Mem.C105_growth Mem.C105_denied", "False of the code: the 16 bytes allocated for the address of every connection are never released. C105_partial: exactly what is left behind after any sequence of connections (one block each, and what C73 says for the requests), and no bad release. C105_growth: at least one block per client and three per request; C105_denied: a client in the deny file costs one block per attempt, so the filter is no protection against it.")
p("C106", "proved", "C106_extra C106_witness", "Equality of the outcomes, undefined behaviour included. Content-Length lines need not have a blank after the colon (less is read then, never more). User code is assumed not to read from the socket itself.")
p("C107", "partial", "C107_refuted C107_partial", "False of the code: the connection is closed without notice after one answer. C107_partial: the second request is never looked at, everything is as if it had not been sent, the socket is closed once.")
p("C108", "partial", "C108_refuted C108_partial C108_stale C108_last", "False of the code: a Cookie line shorter than 18 bytes makes a session of what an earlier line left in the buffer (C108_stale), and of X-Session and Authorization the last one counts (C108_last). C108_partial: all permutations of sections with at most one line for the session, a Cookie line of 18 bytes or more, and a value in X-Real-IP.")
p("C109", "partial", "C109_refuted C109_partial C109_length C109_address C109_boundary", "False of the code: Content-Length:12 is read as 2 (C109_length: the first digit is lost), X-Real-IP loses its first character (C109_address), a multipart type is not recognised (C109_boundary). C109_partial: all other headers but Authorization and Cookie.")
p("C110", "partial", "C110_refuted C110_partial C110_dead", "False of the code: a blank between the path and the comma becomes part of the path, and C110_dead: a rule whose path has white space in it never has any effect, whatever is sent. C110_partial: blanks around the three numbers do not matter.")
p("C111", "partial", "C111_refuted C111_partial C111_beyond C111_witness", "False of the code: while a rule for /docs is exhausted every URL that begins with /docs is refused, such as /docs-old/a (C111_beyond, C111_witness). C111_partial: a rule whose path is not the beginning of the URL (up to case) makes no difference.")
p("C112", "partial", "C112_refuted C112_unreadable C112_partial", "False of the code: return_file ignores that fopen failed, so a file the server may not read is answered with a 200 head and nothing else (C112_unreadable, for every such file). C112_partial: true of files that can be read.")
p("C113", "partial", "Scarce.C113_refuted Scarce.C113_crash Scarce.C113_partial Scarce.C113_granted", "False of the code: the result of calloc for the body is not checked. C113_crash: every API request that announces a body for which there is no memory writes to address 0, before the body is sent and whether or not a route matches. C113_partial: if the blocks for the body are granted nothing changes; C113_granted: with memory for everything the whole server is that of the other properties. Only the blocks whose size the client chooses may be refused in the model.")
p("C114", "partial", "C114_refuted C114_last C114_encoded C114_partial", "False of the code: the last Content-Length counts, of it the leading digits (sign allowed), of the number the lower 32 bits (C114_last); Transfer-Encoding is ignored (C114_encoded). C114_partial: if the length is clear the handler gets exactly the body and the rest stays unread.")
p("C115", "proved", "C115_writes C115_nothing Whole.C115_run", "For every request that is handled without undefined behaviour. The log file is modelled apart. With the digest size of the library (64) every upload is undefined behaviour (C12), so that C115_nothing applies; with a size below 18 an upload stays on the disk even if no route takes the request (example). Whole.C115_run: the same for a whole run of the server with any clients and schedule.")
p("C116", "partial", "C116_refuted C116_folder C116_read C116_write C116_partial", "False of the code: the message is put together in 120 bytes on the stack. C116_read, C116_write: exactly, -1 for paths of up to 98 resp. 87 bytes, a write past the array for any longer one. C116_folder: a folder that may be read is reported as a settings file without settings (fopen opens it, fgets fails). C116_partial: -1 from both for 87 bytes, if it is no folder.")
p("C117", "partial", "C117_refuted C117_partial C117_lost", "False of the code: the file is emptied first and written in place. C117_lost: for every number j there is a moment at which a stop leaves just the first j settings and parse returns 0. C117_partial: what is read is always a first part of the new settings, of which the last may have a shorter value, or the old ones; a cut is noticed only if it falls into a key; other files stay.")
p("C118", "partial", "C118_refuted C118_injects C118_long C118_partial", "False of the code: nothing is escaped. C118_injects: a value v, newline, k2=v2 is read back as two settings, for all k2 and v2. C118_long: a line of more than 510 bytes is handed over cut off and hides the settings after it. C118_partial: without newlines and within 510 bytes the keys are the ones saved, in order, each with the first part of its value (= separates parts).")
p("C119", "partial", "C119_refuted C119_exact C119_partial", "False of the code: the block has 1024 bytes whatever the items. C119_exact: the text is returned if it has less than 1024 bytes, and overflows the block otherwise, for all objects.")
p("C120", "partial", "C120_refuted C120_partial C120_debug C120_defined", "False of the code with -d: C120_debug shows that for every request that reaches user code the token is in the log. C120_partial: at the default level nothing in the log depends on the tokens, for all requests whose other lines say something. C120_defined: the messages are defined for every request handled without fault.")
p("C121", "partial", "C121_refuted C121_partial C121_handshake", "False of the code at the default level: the address after a blank X-Real-IP line is a line break, and the message for a failed handshake has one. C121_partial: all other requests at the default level.")
p("C122", "partial", "C122_refuted C122_partial C122_left C122_answer", "False of the code: refused requests are closed with the header section unread, requests outside /api with their body unread. C122_partial and C122_answer give the exact condition, C122_left the unread bytes. The rule for close on a socket with unread input is a definition (Arrives).")
p("C123", "partial", "C123_refuted C123_partial C123_flood", "False of the code: the body is padded with its last byte up to the announced length, so with the boundary - a body of one byte leaves one warning for every four bytes announced (C123_flood; 99 bytes, 499999999 warnings). C123_partial: at most two messages or one for every three bytes announced, so the bound holds for bodies sent as announced.")
p("C124", "partial", "C124_refuted C124_partial C124_responses C124_undefined", "False of the code: the line of the access log looks up Referer and User-Agent, and if one of them has 256 bytes or more its array holds no terminator and is read past its end. C124_undefined: this happens for every admitted request, whatever it asks for, unless user code answers without the response functions (none of which completes, C124_responses). C124_partial: all other headers may be of any length.")
p("C125", "partial", "Steps.C125_refuted Steps.C125_partial Steps.C125_square Steps.C125_witness", "False of the code: the scratch block of the multipart parser is never cleared, so every later part (an empty one, too) costs a scan of the longest one before, and the bytes that are announced but not sent are asked for one by one and parsed as repetitions of the last one sent. C125_square: k bytes x followed by j announced dashes make at least k*((j-6)/4) steps; C125_witness: a request of k+102 bytes makes k*((1999999991-k)/4) steps. C125_partial: counting does not change what is computed; at most 2401*(n+1)^2 steps for n announced bytes, and at most n without a multipart content type.")
p("C126", "partial", "C126_refuted C126_partial C126_request C126_exact C126_stream C126_json", "False of the code: lengths go through int. C126_request / C126_exact give the outcome for every size n, with r = n mod 2^32: memory past the file is read if r >= 2^31, a signed number overflows if head and r bytes reach 2^31, otherwise the first r bytes are sent with the status 200 (none at all of a file of 4 GiB). C126_partial: files below 2^31 - 1200 bytes are delivered whole and the logged length is right. C126_stream: streams are whole exactly below 2^31 bytes with the head, beyond that a signed number overflows. C126_json: a JSON text of n bytes is announced as n + 2 bytes and n mod 2^32 of them are sent.")
p("C127", "partial", "C127_refuted C127_partial C127_fixed C127_matters", "False of the code: the first match wins, so GET:/user/{id} before GET:/user/list hides it. C127_partial: the order does not matter for requests that match one template at most, for every permutation. C127_fixed: never without parameters. C127_matters: any matching template can be the one chosen.")
p("C128", "partial", "C128_refuted C128_partial C128_exact C128_tail C128_witness", "False of the code: C128_tail: PRE{name}TAIL is the same as a route that ends in a parameter called name}TAI; C128_exact gives the table entry for every template with a '{', also with bytes outside ASCII before it. C128_partial: ASCII before and nothing after the parameter.")
p("C129", "partial", "Shared.C129_refuted Shared.C129_partial Shared.C129_table Shared.C129_clock Shared.C129_tokens Shared.C129_log", "False of the code: two requests race on live_connections (C129_table), on the buffer of gmtime (C129_clock), on the state of strtok (C129_tokens). C129_partial: for every level, start-up, number of workers, list of connections, course of requests and schedule there is no race on anything else - queue, limits, settings, address lists, level, routes - except on LOG_FILE in a program that switches off INFO and sets no log file, and there C129_log shows it.")
p("C130", "partial", "C130_refuted C130_partial C130_smuggled", "False of the code: the method check is a prefix test and the router searches METHOD:PATH with strstr, so the method word itself can carry a route: DELETE:/user/5 /api HTTP/1.1 runs DELETE:/user/{id}. C130_smuggled: so for every parameter route and value, under the limits of the URL /api only. C130_partial: nothing runs for a method word without colon that does not end in one of the four methods, when the path has no colon.")
p("C131", "proved", "Shared.C131_release Shared.C131_progress Shared.C131_end Shared.held_reached", "On the threads of Model/Shared.lean: the mutex is held for at most 13 accesses and pthread calls (an accept loop that writes a message included); every thread with something to do can go on after at most 13 steps of one other thread; from every state that can be reached all threads can be brought to the end of their programs. The wait for the condition is taken to end (C53 is about that). held_reached: there are states in which one thread has the mutex and another waits for it.")
p("C132", "partial", "C132_refuted C132_partial C132_exact C132_bare C132_stale", "False of the code: without parameters the line end stays in content_type, so `application/json` never compares equal. Proved for lines in which the media type stands between one blank and a `;`. C132_exact and C132_bare: what is found in every other line that has a byte behind the colon; C132_stale: when the input ends at the colon, a piece of the header line before.")
p("C133", "partial", "C133_refuted C133_partial C133_nested", "False of the code: `GET:/user/{id}` runs for `/user/5/keys`. Proved for paths with no more slashes than the prefix of any parameter route. C133_nested: every deeper path runs the handler, with the rest of the path, slashes included, as the value.")
p("C134", "partial", "C134_refuted C134_partial C134_url C134_early", "False of the code: of `DELETE /api/user/12` only `DELETE /api/user/1` comes, and the handler is run with id=1. Proved for requests that end before the `/api` of the URL has come. C134_url: a request cut off in its URL runs the route that what came of the URL leads to, with no headers and no form. C134_early: a connection that ends before its second byte makes the server write outside of an array.")
p("C135", "partial", "C135_refuted C135_partial C135_exact C135_authorization", "False of the code: the cookie `_ga=GA1.2.1111` of a statistics script makes the page set a session, and `Authorization: Basic x` is answered with the cookie `WSSESSION=ion: Basic x` (C135_authorization, for all values). Proved for header sections without Authorization and Cookie lines. C135_exact says which session is handed out for every section without a Cookie line shorter than 18 bytes.")
p("C136", "partial", "C136_refuted C136_partial C136_exact", "False of the code: a name of 64 bytes (or a value of 256) is read past its array, and of more than 20 headers only the first 20 are shown. Proved for at most 20 headers that fit. C136_exact covers all header sections.")
p("C137", "partial", "C137_refuted C137_partial C137_guard", "False of the code: for a header that is missing a string constant is returned, and freeing it is undefined. C137_partial says exactly when the result may be freed; C137_guard: not freeing empty texts is right in every case, and leaves a block behind exactly if the header is there without a value.")
p("C138", "partial", "Whole.C138_refuted Whole.C138_partial Whole.C138_allow", "False of the code: a deny file that is there but cannot be read is taken for an empty one. Proved for a readable deny file of less than 8192 bytes; C138_allow: the same for who is not in the allow file (which fails closed).")
p("C139", "partial", "Whole.C139_refuted Whole.C139_partial", "False of the code: who finds the queue full is admitted but never served. Proved: at most once, only admitted clients, each with its own input and address, under every schedule; all of them if nobody found the queue full.")
p("C140", "partial", "Whole.C140_refuted Whole.C140_partial Whole.C140_defined Whole.C140_crash Whole.C140_site", "False of the code: a full queue, and another client's request can be undefined behaviour (C140_crash). Proved: every visitor that is served gets exactly the page, under every schedule and whatever the other requests, and all are served if nobody found the queue full; C140_defined: serving a visitor is defined behaviour in every reachable state; C140_site: if neither the application nor other programs change anything on the way to the page, it need only be there when the server starts. Requests are handled one at a time in this model (see Model/Whole.lean); overlapping requests: C50, C56, C129.")
p("C141", "partial", "Startup.C141_refuted Startup.C141_partial Startup.C141_count Startup.C141_idle", "False of the code: the results of pthread_create are ignored; refused every thread, the server says it is running, accepts connections and serves nobody (C141_idle: under every schedule). C141_partial: true as soon as one of the 200 threads was granted. C141_count: the pool has exactly as many workers as were granted, 200 only if all were.")
p("C142", "partial", "Whole.C142_refuted Whole.C142_partial Whole.C142_once Whole.C142_defined", "False of the code: a client that finds the queue full is never served. C142_once: as claimed when nobody found the queue full, and at any time no call has been carried out twice or for a client that was not admitted. C142_partial: for one such client among clients that send anything. C142_defined: serving it is defined behaviour in every state the server can be in, if the handler is.")
p("C143", "partial", "Whole.C143_refuted Whole.C143_partial Whole.C143_room Whole.C143_call", "False of the code: a client that finds the queue full is neither served nor closed. C143_partial: under every fair schedule each admitted client is served at some time or was one that found the queue full. C143_room: as claimed if the process may not have more client descriptors than the queue has places (1024; the usual limit of 1024 descriptors includes others), because then nobody finds the queue full. C143_call: what is done for a client that calls the API is to run its handler on its call.")
p("C144", "proved", "Tls.C144 Tls.C144_defined Tls.C144_own Tls.C144_order Tls.C144_rest", "Model/Tls.lean has the life of descriptors and TLS objects (who has which, what each operation reaches); what is read and written is left out. The removal from the table of connections after the close, which can hit somebody else's entry, is C88. That accept_request itself closes exactly once is C51.")
p("C145", "partial", "C145_refuted C145_partial C145_exact C145_total", "False of the code: a client that closes without sending anything makes it write before an array. C145_total gives the exact condition for every sequence of bytes (`Bearable` in Spec/Announced.lean), C145_exact a shorter one for every request without an uploaded form in parts (and with a well-formed Content-Length, if any): at least two bytes before a NUL in the first line; for a supported method, the URL ends inside the array of the line; and, if the request is admitted, no header line overruns the session or boundary array, the first Referer and User-Agent among twenty headers have less than 256 bytes, the URL has between 1 and 50 pieces between question marks, and under /api method and path fit 255 bytes and a route with a parameter finds no form (or one with room behind a NUL). C145_partial: lines of less than 74 bytes are harmless. Forms in parts: as C72_exact says. The stack must hold something, see C55.")
p("C146", "partial", "C146_refuted C146_partial C146_quiet C146_unique", "False of the code at the default level: the reasons are debug messages, nothing is written unless the server runs with -d (C146_quiet). C146_partial: with -d exactly one message, the reason. C146_unique: there is at most one reason, and none for a connection that is admitted.")
p("C147", "partial", "Whole.C147_refuted Whole.C147_exact Whole.C147_partial", "False of the code: a client that closes its connection without a word is enough. C147_exact: a step is undefined exactly if it handles a connection whose client sends what is not Bearable (C145_total), or looks up an address in a list of 8192 bytes or more. C147_partial: if what the admitted clients send can be borne and the lists are small, no step is; clients that are turned away, the schedule, the number of connections and the descriptors do not matter.")
p("C148", "proved", "C148_ending C148_total C148_alike leadsTo_unique", "LeadsTo (Spec/Ending.lean) is the specification of the outcome, without the model. C148_ending: every connection handled to its end ended as it says; C148_total: that is every connection whose bytes can be borne (C145_total: all others leave defined behaviour); leadsTo_unique: there is never a second outcome. What the client can be surprised by is part of the specification: values of short header lines taken from earlier lines, and a path whose folder page depends on what was on the stack.")
p("C149", "proved", "Whole.C149_served Whole.C149_alike Whole.C149_start", "Whole server (Model/Whole.lean, where a request is handled in one step; what goes wrong when requests overlap is C50, C56 and what Model/Shared.lean and Model/Reuse.lean are about). The server has to be set up well before every step (AlwaysSound; user code and other programs may change the files). Clients that are not served: C139.")
p("C150", "proved", "Overlap.alone_eq Overlap.C150_overlap Overlap.C150_alone Overlap.C150_undefined Overlap.C150_start Overlap.C150_descriptors", "Model/Overlap.lean: accept_request taken apart into six steps (alone_eq, C150_alone: run without a break they are accept_request). Two threads within one and the same step are not covered: that goes wrong in connection_add/connection_del (C50, C88), strtok (C56) and gmtime (C86), and is a data race (C129). C150_overlap and C150_undefined need the server to be set up well before every step; C150_start needs it at the start only, if user code and others leave the files alone.")
p("C151", "proved", "C151_request Whole.C151_server Overlap.C151_overlap", "Extends C148, C149 and C150 by the access log. That user code takes no entries away is a hypothesis. Time stamp and response time are taken as given here (C83, C85, C86).")
p("C152", "partial", "Overlap.C152_refuted Overlap.C152_partial Overlap.C152_table Overlap.C152_bound Overlap.C152_drained", "False of the code: a connection is closed before its entry is removed, so the descriptor may be handed out again in between, and the request that is leaving (even one that never had an entry, because its method is unknown) removes the entry of the new one. With room for one request two are then in progress (C152_refuted, from the bytes of three clients). C152_partial and C152_table: true in all runs in which no descriptor is handed out again before the request that had it is through. C152_bound, C152_drained: in any run the table has no more entries for a descriptor than there are requests with it past their request line, and is free when there are none.")
p("C153", "proved", "Full.C153_pool Full.C153_room", "Accept loop, filter, queue, workers and overlapping requests in one transition system (Model/Full.lean). That user code does not open or close descriptors of the server is a hypothesis. A request is the six steps of C150, each taken whole; two threads within one step are the subject of C50, C56, C86, C88 and C129.")
p("C154", "proved", "Full.C154_answer Full.C154_start Full.C154_rest Full.C154_full Full.C154_progress Full.C154_undefined", "The hypotheses are those of C148 and C150 (the setup is sound whenever a request is under way, user code keeps to its descriptors). Clients that found the queue full are not told: their connection stays open (C53). Steps are those of Model/Overlap.lean and Model/Queue.lean. A request is the six steps of C150, each taken whole; two threads within one step are the subject of C50, C56, C86, C88 and C129.")
p("C155", "proved", "Full.C155_log Full.C155_idle Full.C155_filter", "Transfers C46, C151 and C152_drained to the server with all its threads (Model/Full.lean). Hypotheses as in C151 and C154. That connections which found the queue full stay open is what the code does (C53). A request is the six steps of C150, each taken whole; two threads within one step are the subject of C50, C56, C86, C88 and C129.")
p("C156", "partial", "Full.C156_partial Full.C156_room Full.C156_answer Full.C156_refuted", "Refuted: a client that finds the queue full is never looked at. Proved for everybody else (C156_partial: through at some time, or turned away and never read from), without a full queue if the process may not have more descriptors than the queue has places (C156_room), and with what the client gets (C156_answer, by C154_start). Unlike C143 handling a connection is not one step: fairness is only assumed of single steps, and that a worker comes back from a request is proved. Each of the six steps of a request (C150) is taken to end: a client that sends nothing and stays connected is not modelled.")
p("C157", "partial", "C157_partial C157_quiet C157_defined C157_refuted", "Refuted at the default level, where nothing is written: an administrator sees unknown API URLs only with -d. Proved exactly as claimed with -d (C157_partial); C157_defined: whenever the router has done its work there are such messages.")
p("C158", "partial", "C158_partial C158_unknown C158_quiet C158_usage C158_refuted", "Refuted: `wayuu -p -v` takes -v for the port and starts the server on port 0. Proved as claimed if the words before follow the usage and can be carried out (C158_partial, whatever follows), with exactly one line on standard error for each root folder named before. C158_unknown, C158_quiet: the other two parts, for command lines that follow the usage otherwise. C158_usage: the usage leaves out -h. terminal_start: the loop with its output comes to the same end as the one of C61 and C89.")
p("C159", "partial", "C159_partial C159_joined C159_exact C159_refuted", "Refuted: strtok passes over empty elements, of a,,b the one in the middle is lost. C159_partial: both ways without empty elements. C159_joined: for every list the elements that are not empty come back, also for delimiters of several bytes. C159_exact: joining the parts gives the text back exactly if no delimiter is first, last or next to another one.")
p("C160", "proved", "Hook.C160_calls Hook.C160_open Hook.C160_kept Hook.C160_all Hook.C160_defined Hook.C160_http", "C160_calls: who is called, for whom, with what and in which order. C160_open: the descriptor at the call. C160_kept: afterwards, until the program closes it. C160_all: when nothing is left to do, everybody who passed the filter has had a call or found the queue full. C160_defined: no step is undefined. C160_http: with NULL it is the process of Model/Server.lean.")
p("C161", "partial", "Disk.C161_partial Disk.C161_silent Disk.C161_form Disk.C161_settings Disk.C161_refuted", "Refuted: the result of fwrite is kept in a size_t and compared with < 0, and write_conf looks at no result. C161_partial: with room for the bytes all is as on a disk without limit. Without: C161_silent (write_file leaves the part that was taken under the name and logs no error), C161_form (the handler of an upload is told the same as if all was stored), C161_settings (write_conf returns 0 whatever was taken; read back are the first settings, of which the last may have a shorter value, and every number of them is possible).")
p("C162", "partial", "Changing.C162_partial Changing.C162_exact Changing.C162_gone Changing.C162_still Changing.C162_refuted", "Refuted: a file that is cut after its length was taken is padded with zero bytes up to the old length (the result of fread is not looked at). C162_partial: files that are replaced by renaming or only added to are delivered as they were when the length was taken. C162_exact: what is sent, byte by byte, for every change. C162_gone: a file removed between being found and being opened gives a 200 head and nothing. C162_still: on a tree at rest everything is as in the other properties. A name that becomes a folder between stat and fopen is excluded (its length depends on the file system).")
p("C163", "proved", "Rotate.C163_rotated Rotate.C163_settled", "The file can be opened and the disk takes the lines (see C164 for disks that do not). That each line is one write is C77_short.")
p("C164", "partial", "Rotate.C164_partial Rotate.C164_exact Rotate.C164_refuted", "Refuted: of a line that is cut the line break is missing, and the next line, which the disk takes whole, continues it. C164_partial: as long as lines are taken whole or not at all, files are sequences of whole lines. C164_exact: what the files hold for any numbers of bytes taken, renamings and failures to open the file.")
p("C165", "partial", "LogRotate.C165_partial LogRotate.C165_follows LogRotate.C165_kept LogRotate.C165_refuted", "Refuted: the file is opened once, so the messages after the renaming follow it (C165_follows: all of them, and nothing is under the old name). C165_partial: it holds if the program calls log_set_file again after the renaming. C165_kept: whatever is set and renamed, each message that passes the level is in exactly one place, and each place has its messages in order.")
p("C166", "partial", "LogRotate.C166_partial LogRotate.C166_exact LogRotate.C166_refuted", "Refuted: log_set_file does not close the stream it replaces, and with no descriptor left it ends the program. C166_exact: the program ends with failure if and only if the file is set more often than streams can be open (without log_close_file and fatal messages).")
p("C167", "partial", "C167_partial C167_handlers C167_limits C167_index C167_refuted", "False of the code: the URL is taken as a path. C167_handlers: no handler ever runs for such a request. C167_index: a GET request gets the site index whatever it asks for. C167_limits: no rule that begins with / concerns it. C167_partial: right for the front page, which is what the site index is.")

claims.sort(key=lambda c: int(c["property"][1:]))
here = os.path.dirname(os.path.abspath(__file__))
with open(os.path.join(here, "..", "MANIFEST.json"), "w") as f:
    f.write('{"claims": [\n' + ",\n".join("  " + json.dumps(c) for c in claims) + "\n]}\n")
