{"id": "C01", "title": "trim strips exactly the surrounding whitespace, in place", "statement": "After trim(str), str holds the original contents with every leading and trailing whitespace byte (space, \\t, \\n, \\v, \\f, \\r) removed and nothing else changed; only the storage of the original string is read or written; a second trim changes nothing.", "quantifier": "every NUL-terminated byte string (any length, any byte values 1..255) in a buffer of any size", "why_tests_cant": "the memmove/terminator arithmetic has a different boundary for every mix of leading, inner and trailing whitespace; tests sample one string", "anchors": ["string_utils.c:trim"]}
{"id": "C02", "title": "rtrim/ltrim cut at the first separator", "statement": "rtrim(str,sep) returns the bytes before the first sep, ltrim(str,sep) the bytes after the first sep; each returns a copy of the whole string when sep does not occur. When sep occurs, rtrim ++ sep ++ ltrim is the original string.", "quantifier": "every string and every separator byte", "why_tests_cant": "loop bound is re-evaluated while the string is being cut; must hold for every position of the separator", "anchors": ["string_utils.c:rtrim", "string_utils.c:ltrim"]}
{"id": "C03", "title": "split_once(line, \":\") splits a header line at its first colon", "statement": "For every line of at most 1023 bytes, split_once(line, \":\") reports two strings exactly when the line contains a colon; they are the whitespace-trimmed text before and after the first colon, properly terminated.", "quantifier": "every line of 0..1023 bytes (everything get_line can deliver)", "why_tests_cant": "fixed-size copies make behaviour depend on the exact length and colon position", "anchors": ["string_utils.c:split_once", "ws.c:accept_request"]}
{"id": "C04", "title": "split_once honours its delimiter argument", "statement": "split_once(str, delim) splits at the first occurrence of delim, whatever delim the caller passes.", "quantifier": "every string and every delimiter", "why_tests_cant": "the only unit test passes \":\"", "anchors": ["string_utils.c:split_once", "string_utils.h"]}
{"id": "C05", "title": "split returns the maximal delimiter-free runs, in order", "statement": "split(str, delim) reports exactly the non-empty maximal runs of bytes not in delim, in order of appearance, each as a terminated string, as long as every run is shorter than 1023 bytes and there are at most 50 of them; no byte of another run or delimiter appears in a result.", "quantifier": "every string and every delimiter set", "why_tests_cant": "token count and token length are unbounded inputs; tests use three short tokens", "anchors": ["string_utils.c:split", "string_utils.h:MAX_SPLIT_STR"]}
{"id": "C06", "title": "join concatenates with the delimiter and never overruns its buffer", "statement": "join(array,size,delim) returns e0 delim e1 delim ... e(n-1) for any array of non-NULL strings, skips NULL elements between the first and the last, and the block it allocates is large enough for the result for every input.", "quantifier": "every array length, every element length, every delimiter length, NULLs in any position but the first and the last", "why_tests_cant": "the allocation is computed by a separate loop from the one that fills it", "anchors": ["string_utils.c:join"]}
{"id": "C07", "title": "startswith / startswithany decide case-insensitive prefixes", "statement": "startswith(str,prefix) is true iff str begins with prefix ignoring ASCII case; startswithany(str,list) is true iff some list element before the NULL or empty-string terminator is such a prefix.", "quantifier": "every string, every prefix, every terminated list", "why_tests_cant": "must hold for prefixes longer than the string and for every list length", "anchors": ["string_utils.c:startswith", "string_utils.c:startswithany"]}
{"id": "C08", "title": "text_find_after finds the first occurrence and stays inside the text", "statement": "For a text of `bytes` bytes followed by NUL, text_find_after(haystack, needle, start, bytes) returns the position just after the first occurrence of needle that begins at or after start, or -1 iff there is none; it never reads past the terminating NUL even though it compares beyond `bytes`.", "quantifier": "every text, every needle, every start", "why_tests_cant": "the inner loop has no upper bound of its own; safety depends on the NUL always mismatching", "anchors": ["string_utils.c:text_find_after"]}
{"id": "C09", "title": "chop_string cuts at the first quote, blank, control or non-ASCII byte", "statement": "chop_string(data) leaves exactly the longest prefix made of bytes 35..127 (char is signed on the supported platform, so bytes >= 128 also cut).", "quantifier": "every NUL-terminated byte string (any length, any byte values 1..255) in a buffer of any size", "why_tests_cant": "depends on every byte value including those >= 128", "anchors": ["string_utils.c:chop_string"]}
{"id": "C10", "title": "string_isalnum accepts exactly non-empty ASCII alphanumeric strings", "statement": "string_isalnum(data) is true iff data is non-empty and every byte is one of 0-9, A-Z, a-z.", "quantifier": "every NUL-terminated byte string (any length, any byte values 1..255) in a buffer of any size", "why_tests_cant": "every byte value at every position", "anchors": ["string_utils.c:string_isalnum"]}
{"id": "C11", "title": "md5sum hashes exactly the first len bytes and prints lowercase hex", "statement": "For every data block and len, md5sum feeds the digest exactly the bytes data[0..len), in order, whatever the number of 512-byte chunks (nothing when len <= 0), and out starts with the 32 lowercase hex digits of the 16-byte digest followed by NUL; different digests print differently.", "quantifier": "every len and every content", "why_tests_cant": "chunk boundaries at every multiple of 512", "anchors": ["string_utils.c:md5sum"]}
{"id": "C12", "title": "An uploaded file is stored intact under the temporary directory", "statement": "For a multipart part carrying filename=\"...\", the bytes of the file are written to /tmp/wayuu/<thread>-<md5hex>, and the form string gains field=<original name>&tmpfile=<file>; no other memory is modified.", "quantifier": "every field name, file name and file content", "why_tests_cant": "memory effects of fixed-size local arrays are invisible to value-comparing tests", "anchors": ["ws.c:save_tmp_file", "string_utils.c:md5sum"]}
{"id": "C13", "title": "json_array_of_strings renders the array it was given", "statement": "json_array_of_strings returns text that is a JSON array of strings which decodes to exactly the input strings (and [] for no strings), without overrunning its buffer.", "quantifier": "every array of strings", "why_tests_cant": "must hold for every byte content (quotes, backslashes, control bytes) and every length", "anchors": ["json_utils.c:json_array_of_strings"]}
{"id": "C14", "title": "json_array_of_ints renders every array of ints", "statement": "json_array_of_ints(array,size) returns the JSON array of the first size ints in decimal, decodable back to the same ints, and its buffer is never overrun, for every int value and every size.", "quantifier": "all 2^32 int values at every position, every size", "why_tests_cant": "buffer is sized per element while the contents depend on sign and digits", "anchors": ["json_utils.c:json_array_of_ints"]}
{"id": "C15", "title": "json_key_value* return one well-formed object member", "statement": "json_key_value, _int, _bool and _uint32_t return \"key\":value as a well-formed JSON object member that decodes to that key and value, never overrunning their buffer; a NULL value is rendered as the empty string.", "quantifier": "every key, every value, every int / uint32 / bool", "why_tests_cant": "buffer slack is constant while inputs are unbounded", "anchors": ["json_utils.c:json_key_value", "json_utils.c:json_key_value_int", "json_utils.c:json_key_value_bool", "json_utils.c:json_key_value_uint32_t"]}
{"id": "C16", "title": "json_array_of_entities is the array of the serialised entities", "statement": "json_array_of_entities returns '[' + the serialiser's output for each element in order, comma separated + ']', for every number of elements and every output length, without overrunning a buffer; if every element is valid JSON so is the result.", "quantifier": "every list size and every serialiser output", "why_tests_cant": "elements may exceed MAX_SINGLE_JSON_ENTITY_STR_LEN", "anchors": ["json_utils.c:json_array_of_entities"]}
{"id": "C17", "title": "conf_parse_line extracts key and value", "statement": "For a line key=value (with any surrounding whitespace), conf_parse_line yields the trimmed key and the trimmed text after '='; a line without '=' yields no item; no line makes it crash.", "quantifier": "every configuration line", "why_tests_cant": "keys and values may contain any bytes, including further '=' signs or nothing at all", "anchors": ["conf_parser.c:conf_parse_line", "conf_parser.c:conf_parse_first_pass"]}
{"id": "C18", "title": "multi-valued keys yield every comma separated element", "statement": "For a multi-valued key, the parsed item lists every non-empty comma-separated element of the value, trimmed, in order.", "quantifier": "every value, any number of elements", "why_tests_cant": "limit is a compile-time constant; behaviour at and past it matters", "anchors": ["conf_parser.c:conf_parse_multi", "conf_parser.h:_CONF_MAX_MULTI_ELEMENTS"]}
{"id": "C19", "title": "conf_item_to_string is inverted by conf_parse_line", "statement": "For every item with a clean key and clean value(s), conf_parse_line(conf_item_to_string(item)) returns the same key, value and multi-values.", "quantifier": "every key/value/multivalue list without delimiter bytes or outer whitespace, up to the 20 multi-values an item can hold", "why_tests_cant": "round-trip over an infinite domain", "anchors": ["conf_parser.c:conf_item_to_string", "conf_parser.c:conf_parse_line"]}
{"id": "C20", "title": "parse() calls the handler once per registered key, in file order", "statement": "parse(path, handler, ...) invokes the handler exactly once for each line whose key is in flags, in file order, with that line's item (multi-values split iff the flag says so), returns 0 iff every line contains '=', and otherwise returns -1 after having handled exactly the lines before the first one without '='.", "quantifier": "every file content and every flag table", "why_tests_cant": "line structure is unbounded", "anchors": ["conf_parser.c:parse", "conf_parser.c:get_key_flag"]}
{"id": "C21", "title": "write_conf followed by parse recovers every item", "statement": "Writing any list of clean items with write_conf and reading the file with parse (all keys registered) hands the handler exactly those items in order.", "quantifier": "every list of up to 20 clean items (_CONF_MAX_ITEMS) whose lines fit the reader (at most 510 bytes)", "why_tests_cant": "round-trip through a file with fixed line buffer", "anchors": ["conf_parser.c:write_conf", "conf_parser.c:parse", "conf_parser.c:new_serializable"]}
{"id": "C22", "title": "get_key_flag returns the first flag registered for the key", "statement": "get_key_flag returns the first entry whose key equals the given key, and an empty flag (NULL, false) iff no entry matches.", "quantifier": "every flag table and every key", "why_tests_cant": "first-match semantics over any table", "anchors": ["conf_parser.c:get_key_flag"]}
{"id": "C23", "title": "freeing configuration items only releases owned memory", "statement": "free_conf_item never frees a string literal, an interior pointer or the same block twice, for every item the parser, the constructors or copy_conf_item produce.", "quantifier": "every line / item and every order of parse, copy, serialise, free", "why_tests_cant": "ownership bugs show up only on particular values (empty strings, 20+ elements)", "anchors": ["conf_parser.c:free_conf_item", "conf_parser.c:copy_conf_item", "conf_parser.c:new_conf_item_with_values", "conf_parser.c:conf_parse_multi"]}
{"id": "C24", "title": "Route templates PREFIX{name} are decomposed exactly", "statement": "router_resolve_route on PREFIX{name} stores PREFIX and name, for every ASCII PREFIX without '{' shorter than 256 bytes and every name shorter than 64 bytes; longer ones would overrun the matcher.", "quantifier": "every template", "why_tests_cant": "pointer walk with post-increments; lengths unbounded", "anchors": ["router.c:router_resolve_route"]}
{"id": "C25", "title": "The router dispatches to the first matching route, otherwise answers 400", "statement": "For any sequence of router_add_route calls (at most 128) and any request, the handler that runs is that of the earliest registered route matching METHOD:PATH; at most one handler runs, once; if no route matches no handler runs and exactly one 400 response is sent.", "quantifier": "every routing table, every request", "why_tests_cant": "first-match over any table and any request string", "anchors": ["router.c:router_handle_request", "router.c:router_add_route", "router.c:reject_routing_request"]}
{"id": "C26", "title": "A rejecting filter prevents the handler from running", "statement": "If the chosen route has a filter, it runs exactly once, before the handler; if it returns false neither this nor any other handler runs and the router sends nothing itself.", "quantifier": "every routing table, filter behaviour and request", "why_tests_cant": "security gate must hold for every table and every filter outcome", "anchors": ["router.c:router_handle_request", "router.h:request_filter"]}
{"id": "C27", "title": "A path parameter reaches the handler as name=value", "statement": "For a route PREFIX{name} and a request PREFIX+value (value non-empty), the handler sees form = name=value when the body is empty, and form = body&name=value otherwise, with no memory overrun.", "quantifier": "every prefix, name, value and body", "why_tests_cant": "buffer capacities depend on body and parameter lengths", "anchors": ["router.c:router_handle_request", "router.c:router_extract_param"]}
{"id": "C28", "title": "Parameter routes match only requests that start with their prefix", "statement": "A route PREFIX{name} is selected only if METHOD:PATH starts with PREFIX and has at least one more byte.", "quantifier": "every request and every template", "why_tests_cant": "an attacker chooses the path; only a universally quantified statement rules out odd paths", "anchors": ["router.c:router_handle_request"]}
{"id": "C29", "title": "Routing never overruns its buffers for any request the server accepts", "statement": "For every request line the server accepts and every routing table, building METHOD:PATH and extracting the parameter stay inside their buffers.", "quantifier": "every method (<= 254 bytes), every url (<= 254 bytes), every template", "why_tests_cant": "off-by-one at the exact maximum length", "anchors": ["router.c:router_handle_request", "router.c:router_extract_param", "ws.c:accept_request"]}
{"id": "C30", "title": "Status responses are well-formed HTTP with an exact Content-Length", "statement": "For each supported status and every message that fits the buffer, send_http_status sends one response: the status line with that code, well-formed header lines, a blank line, and a body of exactly Content-Length bytes (message + CRLF, or nothing when the message is empty); for unsupported codes nothing is sent.", "quantifier": "every int status and every message", "why_tests_cant": "message length arithmetic and every status", "anchors": ["http_utils.c:send_http_status", "http_utils.c:_find_http_status_index", "http_utils.c:not_found", "http_utils.c:bad_request", "http_utils.c:ok"]}
{"id": "C31", "title": "JSON responses are well-formed HTTP with an exact Content-Length", "statement": "For every supported status and every payload of any length, return_json_with_status (and return_json, created_with_json) sends one response whose headers include Content-Type: application/json and whose body is payload + CRLF with a Content-Length equal to the body's length.", "quantifier": "every payload, every status", "why_tests_cant": "payload unbounded; Content-Length digits vary", "anchors": ["http_utils.c:return_json_with_status", "http_utils.c:return_json_headers", "http_utils.c:return_json_list"]}
{"id": "C32", "title": "The logged response length is the number of bytes sent", "statement": "After any response helper completes on a fresh request, req->response_length equals (mod 2^32) the number of bytes handed to the socket for that response.", "quantifier": "every helper, every payload, every file size", "why_tests_cant": "several independent length accumulators", "anchors": ["http_utils.c:return_json_with_status", "http_utils.c:return_json_stream", "http_utils.c:send_http_status", "http_utils.c:direct_file", "http_utils.c:return_headers"]}
{"id": "C33", "title": "Streams are forwarded byte for byte", "statement": "send_stream sends the entire content of a NUL-free stream in order followed by CRLF and returns the number of bytes sent, for every content and every line length.", "quantifier": "every stream content", "why_tests_cant": "line chunking at 1022 bytes", "anchors": ["http_utils.c:send_stream", "http_utils.c:return_json_stream"]}
{"id": "C34", "title": "Static files get the MIME type of their extension", "statement": "get_content_type returns the documented type for each known extension (html, js, png, jpg, jpeg, zip, css, svg, ico, txt, csv, yaml), text/html for names without extension and application/octet-stream for any other extension; get_content_type_for_mime does the same for MIME names.", "quantifier": "every file name", "why_tests_cant": "the default branch covers infinitely many names", "anchors": ["http_utils.c:get_content_type", "http_utils.c:get_content_type_for_mime"]}
{"id": "C35", "title": "A static file response is one well-formed HTTP response carrying the file", "statement": "direct_file on an existing file sends a single well-formed 200 response head with the file's content type, followed by exactly the file's bytes; on a missing file it sends nothing and returns -1.", "quantifier": "every file content, every session value", "why_tests_cant": "header assembly through a reused buffer", "anchors": ["http_utils.c:direct_file", "http_utils.c:return_headers", "http_utils.c:return_file"]}
{"id": "C36", "title": "URL is split at the first '?' into path and query", "statement": "get_path_and_query_string(url) returns the part before the first '?' and the part after it (empty if there is none), for every URL.", "quantifier": "every url the server reads (<= 254 bytes)", "why_tests_cant": "position and number of '?' arbitrary, including none of the expected parts", "anchors": ["http_utils.c:get_path_and_query_string"]}
{"id": "C37", "title": "http_get_header returns the value of the first header with that name", "statement": "http_get_header(req,name) returns the value of the earliest stored header with exactly that name, and the empty string iff there is none.", "quantifier": "every header list and name", "why_tests_cant": "any number of headers, any value length", "anchors": ["http_utils.c:http_get_header"]}
{"id": "C38", "title": "return_response renders status, info, description and data", "statement": "return_response(rsp) returns {\"RSP\":..., \"info\":..., \"description\":..., \"data\":...} for every response record, omitting empty info and description.", "quantifier": "every response record", "why_tests_cant": "absent fields select different branches", "anchors": ["http_utils.c:return_response"]}
{"id": "C39", "title": "Error objects serialise to {\"code\":..,\"message\":..}", "statement": "wayuu_error_t_json_serializer returns a JSON object with the error's code (UNKNOWN when empty) and message, never overrunning its buffer; new_error_with_values stores both strings intact when they fit.", "quantifier": "every code (< 64 bytes) and message (< 1024 bytes)", "why_tests_cant": "every length up to the limits", "anchors": ["http_utils.c:wayuu_error_t_json_serializer", "http_utils.c:new_error_with_values"]}
{"id": "C40", "title": "get_line frames the input without losing or inventing bytes", "statement": "get_line(req,buf,size) stores the longest prefix of the pending input that ends at the first newline, at end of input, or after size-1 bytes; it stores a terminator inside buf, returns the number of bytes stored, and leaves exactly the rest of the input for the next call.", "quantifier": "every input stream and every size >= 1", "why_tests_cant": "arbitrary segmentation of arbitrary input", "anchors": ["ws.c:get_line"]}
{"id": "C41", "title": "Requests with an unsupported method are rejected without side effects", "statement": "If the request's method does not begin (ignoring case) with GET, POST, PUT or DELETE, the server sends exactly one 400 response, closes the socket, runs no handler and leaves the table of live connections unchanged.", "quantifier": "every request line of at least two bytes", "why_tests_cant": "every method string", "anchors": ["ws.c:accept_request", "ws.c:ALLOWED_HTTP_METHODS"]}
{"id": "C42", "title": "Request headers are stored in order, at most 20 of them", "statement": "After header parsing, the request holds the name and value of the first 20 header lines that contain a colon, in order, trimmed, as sent (names under 64 and values under 256 bytes).", "quantifier": "every header section", "why_tests_cant": "number and size of headers unbounded", "anchors": ["ws.c:accept_request", "http_utils.h:HTTP_MAX_HEADERS"]}
{"id": "C43", "title": "The session token is the value of the X-Session, Authorization or WSSESSION cookie header", "statement": "req->session equals the (trimmed) value of the last X-Session or Authorization header, or of the WSSESSION cookie when no such header precedes it, for every header section; it never exceeds its 64-byte buffer.", "quantifier": "every header section", "why_tests_cant": "fixed offsets into the line, stale buffer contents", "anchors": ["ws.c:accept_request"]}
{"id": "C44", "title": "The request body is exactly Content-Length bytes of the input", "statement": "For an API request with Content-Length: n (n > 0) the handler's form is exactly the next n bytes of the input, and the header's value is read correctly whatever its formatting.", "quantifier": "every body, every n, every header formatting", "why_tests_cant": "short reads and header spacing", "anchors": ["ws.c:handle_api_request", "ws.c:accept_request"]}
{"id": "C45", "title": "A multipart form becomes name=value pairs joined by '&'", "statement": "For every multipart/form-data body made of simple fields, the resulting form string is name1=value1&name2=value2&..., in order, independent of the lengths of the fields, with no memory overrun.", "quantifier": "every list of fields, every name and value not containing the boundary", "why_tests_cant": "one scratch buffer is reused for all parts; stale data from a longer part can leak into a shorter one", "anchors": ["ws.c:multipart_parse", "ws.c:part_parse"]}
{"id": "C46", "title": "Address filter: deny wins, a missing allow file admits everyone else", "statement": "allowed_address(ip) is false if ip occurs in the deny file; otherwise true if there is no allow file; otherwise true iff ip occurs in the allow file.", "quantifier": "every deny/allow file content (< 8192 bytes) and every address", "why_tests_cant": "combination of two files in every state", "anchors": ["ws.c:allowed_address", "file_utils.c:find_in_file"]}
{"id": "C47", "title": "Only addresses actually listed are matched by the filter", "statement": "An address is treated as listed in allow/deny only if it is one of the addresses in the file (one per line).", "quantifier": "every list and every address", "why_tests_cant": "substring coincidences between addresses", "anchors": ["ws.c:allowed_address", "file_utils.c:find_in_file", "README.md"]}
{"id": "C48", "title": "load_limits reads every complete rule, in order, up to 64", "statement": "load_limits returns, in file order, one rule for each line that starts with '/' and has at least three comma-separated fields (path, max connections, max per IP, optional seconds), and nothing for other lines, up to 64 rules.", "quantifier": "every limits file whose rule paths are shorter than 512 bytes (longer ones overrun a field: C48_over)", "why_tests_cant": "skipped and rejected lines interleave with accepted ones and reuse the same record", "anchors": ["ws.c:load_limits"]}
{"id": "C49", "title": "At no time are there more connections than a rule allows", "statement": "For every history of accepted and finished connections handled one at a time, the number of live connections under a limited path never exceeds its max connections, nor its per-IP maximum for one address.", "quantifier": "every history of connection additions and removals, every rule set", "why_tests_cant": "needs an invariant over unbounded histories", "anchors": ["ws.c:connection_add", "ws.c:connection_validate", "ws.c:get_live_stats", "README.md"]}
{"id": "C50", "title": "Connection limits hold under concurrency", "statement": "The per-path limit also holds when worker threads run connection_add and connection_close concurrently, for every interleaving.", "quantifier": "every interleaving of up to 200 workers", "why_tests_cant": "schedules are not enumerable by tests", "anchors": ["ws.c:connection_add", "ws.c:connection_validate", "ws.c:connection_close"]}
{"id": "C51", "title": "A finished request leaves no entry in the table of live connections", "statement": "Whatever the request, once it has been handled its socket is closed exactly once, and the table of live connections contains exactly the entries it contained before the request arrived.", "quantifier": "every request whose handling ends without undefined behaviour, every table in which the new socket does not occur, handlers that do not close sockets themselves", "why_tests_cant": "all exit paths of a long function", "anchors": ["ws.c:accept_request", "ws.c:connection_close", "ws.c:connection_del"]}
{"id": "C52", "title": "The connection queue is a bounded FIFO delivering each socket exactly once", "statement": "For every interleaving of the accepting thread and any number of workers, sockets are taken in the order they were accepted, each by exactly one worker, and never more than 1024 are waiting; nothing outside the ring buffer is accessed.", "quantifier": "every schedule, every number of workers, every number of connections", "why_tests_cant": "index wrap-around and schedules are unbounded", "anchors": ["ws.c:ws_queue_get", "ws.c:ws_create_queue", "ws.c:ws_launch"]}
{"id": "C53", "title": "A queued connection never waits while a worker sleeps un-notified", "statement": "In every reachable state, if sockets are queued and some worker is asleep, then a wake-up is pending or enough workers are already awake to take the queued sockets; so wake-ups are never lost.", "quantifier": "every schedule including spurious wake-ups", "why_tests_cant": "lost wake-ups depend on exact interleavings", "anchors": ["ws.c:ws_queue_get", "ws.c:ws_launch"]}
{"id": "C54", "title": "Static requests only read files under the static root", "statement": "Whatever the URL, the file sent for a static request lies under WAYUU_STATIC_ROOT.", "quantifier": "every url and every file tree", "why_tests_cant": "attacker-controlled path", "anchors": ["ws.c:handle_static_routes", "http_utils.c:direct_file"]}
{"id": "C55", "title": "Static requests: file, folder index, or the site index", "statement": "A GET outside /api returns the named file if it exists under the static root, the folder's index.html if the URL ends in '/', and the site index otherwise; '/' and '/favicon.ico' are rewritten to the configured pages; some response is always sent.", "quantifier": "every url and file tree", "why_tests_cant": "depends on uninitialised memory in some branches", "anchors": ["ws.c:handle_static_routes"]}
{"id": "C56", "title": "Concurrent requests do not see each other's URL", "statement": "For every interleaving of two requests being parsed, each request's path and query string depend only on its own URL.", "quantifier": "every pair of URLs, every interleaving", "why_tests_cant": "shared tokenizer state; needs every schedule", "anchors": ["http_utils.c:get_path_and_query_string", "string_utils.c:split", "ws.c:accept_request"]}
{"id": "C57", "title": "Log level filtering and fatal termination", "statement": "A message is written iff its level is at least the configured level; a fatal message always terminates the process after being written, no other level does.", "quantifier": "every documented level (trace to fatal) and every configured level up to fatal", "why_tests_cant": "all combinations, including termination", "anchors": ["log.c:__logger", "log.c:log_level_is_enabled", "log.c:log_set_level"]}
{"id": "C58", "title": "Every response is recorded as exactly one line of the access log", "statement": "Each response helper appends exactly one line to the access log, containing the client address, request line, status, response length, referer and user agent; request data cannot forge additional lines.", "quantifier": "every request", "why_tests_cant": "attacker-controlled header bytes", "anchors": ["wayuu_log.c:log_access", "http_utils.c:send_http_status"]}
{"id": "C59", "title": "write_file / read_file / find_in_file agree on file contents", "statement": "After write_file(f,p,n) succeeds, read_file(out,f,0) yields exactly those n bytes plus a terminator, read_file(out,f,m) yields the first min(n,m-1) bytes, other files are unchanged, and find_in_file(f,s) is true iff s occurs in the text before the first NUL.", "quantifier": "every content and length", "why_tests_cant": "round-trip over all contents; buffer of fixed size in find_in_file", "anchors": ["file_utils.c:write_file", "file_utils.c:read_file", "file_utils.c:find_in_file"]}
{"id": "C60", "title": "check_createdir succeeds iff the directory exists afterwards", "statement": "check_createdir(path) returns true iff path is a directory when it returns, and changes nothing else in the file system.", "quantifier": "every file tree and path", "why_tests_cant": "every prior state of the path", "anchors": ["file_utils.c:check_createdir", "file_utils.c:is_dir"]}
{"id": "C61", "title": "Command line options take effect as documented", "statement": "After start-up the server uses the documented defaults, and -r root makes it read static content from root/www, certificates from root/ssl and IP/limit files from root/etc; -p, -b, -d, -f set port, address, debug level and plain HTTP.", "quantifier": "every sequence of options", "why_tests_cant": "interaction of defaults and option order", "anchors": ["main.c:main", "README.md"]}
{"id": "C62", "title": "Every accepted request is answered", "statement": "For every request whose header section is complete, the server sends at least one response before closing the connection.", "quantifier": "every request, routing table and file tree", "why_tests_cant": "all paths through request handling", "anchors": ["ws.c:accept_request", "ws.c:handle_static_routes", "router.c:router_handle_request"]}
{"id": "C63", "title": "A well-formed API request reaches its handler with the right contents", "statement": "For every well-formed request METHOD /api/PATH?QUERY with headers and body within the documented limits and a constant route METHOD:/PATH, the handler runs once, and sees exactly that method, path, query, headers and body.", "quantifier": "every method, path, query, header list and body within limits", "why_tests_cant": "end-to-end parsing over an infinite domain", "anchors": ["ws.c:accept_request", "ws.c:handle_api_request", "router.c:router_handle_request"]}
{"id": "C64", "title": "Requests are routed to the API iff their URL starts with /api", "statement": "A URL beginning with /api (ignoring case) goes to the router and never to static files; any other URL is served statically for GET and answered 400 for other methods, and never reaches a handler.", "quantifier": "every url and method", "why_tests_cant": "mount-point decision for every url", "anchors": ["ws.c:accept_request", "ws.h:API_MOUNT"]}
{"id": "C65", "title": "X-Real-IP only changes the logged address, never admission", "statement": "The address used for limits and the address filter is the TCP peer's; an X-Real-IP header replaces only the address recorded in the request afterwards, and that value is at most 24 bytes.", "quantifier": "every header section", "why_tests_cant": "attacker-controlled header", "anchors": ["ws.c:accept_request"]}
{"id": "C66", "title": "Connections that cannot be served are closed", "statement": "When an address is denied or the queue is full, the accepted socket is closed and no worker ever receives it.", "quantifier": "every history of accepts", "why_tests_cant": "overload history", "anchors": ["ws.c:ws_launch"]}
{"id": "C67", "title": "A rule's max seconds drops long-lived connections", "statement": "A connection under a rule with max seconds s is dropped once alive for more than s seconds.", "quantifier": "every history and clock", "why_tests_cant": "time-dependent behaviour over all histories", "anchors": ["ws.c:load_limits", "ws.c:connection_validate", "README.md"]}
{"id": "C68", "title": "The result of join belongs to the caller", "statement": "join returns a dynamically allocated string in every case, so the caller may always free it.", "quantifier": "every array, size and delimiter", "why_tests_cant": "a literal and a heap block look the same until freed", "anchors": ["string_utils.h:join", "string_utils.c:join"]}
{"id": "C69", "title": "Reading a header section never leaves its arrays", "statement": "Whatever bytes a client sends as header section, parsing it accesses no memory outside the line, header, boundary and session arrays.", "quantifier": "every byte sequence as header section, every previous content of the line buffer", "why_tests_cant": "attacker-controlled lengths; silent overruns", "anchors": ["ws.c:accept_request", "ws.h:MAX_SESSION"]}
{"id": "C70", "title": "A multipart form request reaches its handler as a form", "statement": "For every well-formed POST to an API route whose Content-Type announces a multipart boundary, plain or quoted, and whose body consists of fields within the documented limits, the handler runs once and sees the form name1=value1&name2=value2 in order.", "quantifier": "every header section, boundary, list of fields and values", "why_tests_cant": "end-to-end parsing over an infinite domain", "anchors": ["ws.c:accept_request", "ws.c:multipart_parse", "router.c:router_handle_request"]}
{"id": "C71", "title": "The body of a file response is the file", "statement": "For every static GET answered with a file, the bytes after the first empty line of the response are exactly the bytes of the file, whatever session cookie the client sends.", "quantifier": "every header section, every file", "why_tests_cant": "client-controlled bytes are echoed into the header", "anchors": ["ws.c:accept_request", "http_utils.c:direct_file", "ws.c:handle_static_routes"]}
{"id": "C72", "title": "Reading a multipart body never leaves its arrays", "statement": "Whatever bytes a client sends as a multipart body, and whatever the boundary, parsing it accesses no memory outside the body and the arrays of the parser.", "quantifier": "every body and boundary", "why_tests_cant": "attacker-controlled lengths; silent overruns", "anchors": ["ws.c:multipart_parse", "ws.c:part_parse"]}
{"id": "C73", "title": "Handling a request leaves no memory behind", "statement": "Every memory block obtained while a request is handled has been freed when its connection is closed, exactly once and by nobody else, so a server that runs for months does not grow.", "quantifier": "every request, header section, route and number of requests", "why_tests_cant": "growth per request is invisible in the answer", "anchors": ["ws.c:accept_request", "http_utils.c:free_path_and_query_t", "string_utils.c:free_str_list_t", "router.c:router_handle_request"]}
{"id": "C74", "title": "Limits per address tell addresses apart", "statement": "The address recorded for a connection is the dotted decimal of the peer's IPv4 address, it fits its array, two connections have the same recorded address exactly if they come from the same address, and so the limit per address counts the connections of that address and no others.", "quantifier": "all 2^32 addresses, every table of connections and rule list", "why_tests_cant": "pairs of addresses", "anchors": ["ws.c:accept_request", "ws.c:connection_validate", "ws.c:get_live_stats"]}
{"id": "C75", "title": "Requests do not influence one another", "statement": "A worker that serves a sequence of connections sends, logs and runs for each of them exactly what a freshly started server with the same files would; the sockets are closed once each, in order, and the table of connections is as before.", "quantifier": "every sequence of requests, configuration and file system", "why_tests_cant": "history dependence over unbounded sequences", "anchors": ["ws.c:ws_connection_handler", "ws.c:accept_request"]}
{"id": "C76", "title": "Lines of the server log do not mix", "statement": "However the threads of the server are scheduled, the server log reads as a sequence of whole lines, one per message, those of each thread in order.", "quantifier": "every set of threads, messages and schedule", "why_tests_cant": "depends on scheduling", "anchors": ["log.c:__logger"]}
{"id": "C77", "title": "Lines of the access log do not mix", "statement": "However the threads of the server are scheduled and whatever clients send, the access log is at any time a sequence of whole lines, those of each thread in order; each line is handed to the operating system in one write.", "quantifier": "every set of threads, requests and schedule", "why_tests_cant": "depends on scheduling and on the largest line a client can provoke", "anchors": ["wayuu_log.c:log_access", "ws.c:accept_request"]}
{"id": "C78", "title": "The server survives overload", "statement": "Whatever clients do, and however many of them connect, the server process goes on: it has descriptors for a full queue and for every worker, so it never runs out of them.", "quantifier": "every sequence of connections, every schedule, every queue, pool and descriptor limit", "why_tests_cant": "unbounded histories of connections", "anchors": ["ws.c:ws_launch", "ws.c:ws_queue_get", "log.c:__logger"]}
{"id": "C79", "title": "Sockets of different clients are kept apart", "statement": "At any time every open client socket is in exactly one place: in the queue, with one worker, turned away or with the accepting thread; no two workers ever have the same socket, even though the operating system uses numbers again.", "quantifier": "every schedule of the threads, every history of connections", "why_tests_cant": "interleavings; re-use of descriptors", "anchors": ["ws.c:ws_launch", "ws.c:ws_queue_get", "ws.c:ws_connection_handler"]}
{"id": "C80", "title": "Clients that send nothing do not stop the service", "statement": "Whatever set of clients stays silent, every other connection is handed to a worker and served.", "quantifier": "every set of silent clients, schedule and pool size", "why_tests_cant": "absence of progress is not observable in finite tests", "anchors": ["ws.c:ws_launch", "ws.c:ws_connection_handler", "ws.c:accept_request"]}
{"id": "C81", "title": "Reading input always comes to an end", "statement": "Whatever finite data it is given, every loop of the library that runs until the data says so ends: header sections, multipart bodies, streamed responses, configuration and limit files, splitting and trimming of strings, white space in the request line and route templates.", "quantifier": "every input", "why_tests_cant": "non-termination is not observable in finite tests", "anchors": ["ws.c:accept_request", "ws.c:multipart_parse", "ws.c:load_limits", "conf_parser.c:parse", "http_utils.c:send_stream", "string_utils.c:split", "router.c:router_resolve_route"]}
{"id": "C82", "title": "The memory a request takes is bounded by what the client sends", "statement": "The block reserved for the body of a request is at most 64 KiB larger than the bytes the client has sent, so that clients cannot exhaust memory with short messages.", "quantifier": "every header section and body", "why_tests_cant": "attacker-chosen lengths up to 2^31", "anchors": ["ws.c:accept_request", "ws.c:handle_api_request"]}
{"id": "C83", "title": "Access log lines carry the right time", "statement": "The time stamp of an access log line is the UTC date and time of the clock reading in the common log format, for every moment from 1970 on; stamps of different seconds differ and always fit their buffer.", "quantifier": "every clock reading below 2^55 seconds", "why_tests_cant": "calendar arithmetic over all dates", "anchors": ["log.c:format_ts_common_log", "wayuu_log.c:log_access"]}
{"id": "C84", "title": "Server log lines tell when they were written", "statement": "From the time stamp of a line of the server log the second at which it was written can be recovered.", "quantifier": "every clock reading", "why_tests_cant": "pairs of moments any distance apart", "anchors": ["log.c:format_timestamp", "log.c:__logger"]}
{"id": "C85", "title": "The response time in the access log is the time the request took", "statement": "The last field of an access log line is the time between arrival of the request and the writing of the line, exact to the millisecond; an adjustment of the system clock meanwhile changes it by no more than the adjustment.", "quantifier": "every duration, clock reading and adjustment", "why_tests_cant": "rounding of every 64-bit value; adjustments of the clock", "anchors": ["wayuu_log.c:response_time", "wayuu_log.c:epoch_millis", "wayuu_log.c:log_access"]}
{"id": "C86", "title": "Time stamps are right under concurrency", "statement": "However the threads of the server are scheduled, the time stamp of a line is that of a second between the earliest and the latest clock reading of the threads.", "quantifier": "every number of threads, clock reading and schedule", "why_tests_cant": "depends on scheduling", "anchors": ["log.c:format_ts_common_log", "log.c:format_timestamp"]}
{"id": "C87", "title": "Pages of other origins can use the API", "statement": "Every response the helpers send carries exactly one Access-Control-Allow-Origin field that admits every origin, and the OPTIONS request browsers send before a PUT, a DELETE or a POST of JSON is answered so too.", "quantifier": "every helper, status, payload and request", "why_tests_cant": "all payloads and requests", "anchors": ["http_utils.c:return_json_with_status", "http_utils.c:return_json_stream", "http_utils.c:return_headers_with_mime", "http_utils.c:send_http_status", "ws.c:accept_request"]}
{"id": "C88", "title": "The table of connections lists the connections being served", "statement": "However requests follow each other on the workers, every connection being served is in the table the limits are checked against, and every entry is a connection being served or just being closed; when no request is in progress the table is empty.", "quantifier": "all numbers of workers, all request sequences, all schedules and all choices of descriptor numbers by the operating system", "why_tests_cant": "depends on when the operating system gives out a number again; schedules are unbounded", "anchors": ["ws.c:connection_close", "ws.c:connection_del", "ws.c:connection_add", "ws.c:accept_request"]}
{"id": "C89", "title": "A command line that does not follow the usage is turned down", "statement": "The program starts the server only if the words of the command line follow the usage text (options in one word or several, values attached or in the next word), and then with exactly the options written, in that order.", "quantifier": "all command lines, all file trees", "why_tests_cant": "all command lines", "anchors": ["main.c:main", "main.c:print_usage", "README.md:Standalone usage"]}
{"id": "C90", "title": "Log messages go to the file last set", "statement": "For every sequence of calls of the logging functions, each message that passes the level is appended, in order, to the file named by the last log_set_file, or goes to stderr if there was none; nothing else is written and log_close_file does no harm.", "quantifier": "all sequences of calls, levels, files and messages", "why_tests_cant": "all sequences of calls", "anchors": ["log.c:__logger", "log.c:log_set_file", "log.c:log_close_file", "log.c:log_set_level"]}
{"id": "C91", "title": "The routes registered since router_init are the ones served", "statement": "After any sequence of router_init, router_add_route and free_routing_table within the capacity of the table, requests are dispatched among exactly the routes registered since the last router_init, in their order.", "quantifier": "all sequences of calls, all templates, all requests", "why_tests_cant": "all sequences of calls", "anchors": ["router.c:router_init", "router.c:router_add_route", "router.c:free_routing_table", "router.c:router_handle_request"]}
{"id": "C92", "title": "A header is found whatever the case of its name", "statement": "Header names are case-insensitive in HTTP: http_get_header(req, name) returns the value of the first header whose name equals the given one up to the case of letters, and the server's own uses (referer and user agent in the access log) see it too.", "quantifier": "all header sections, all names", "why_tests_cant": "all header sections, all spellings of all names", "anchors": ["http_utils.c:http_get_header", "wayuu_log.c:log_access", "ws.c:accept_request"]}
{"id": "C93", "title": "The value of one header is never taken for another header", "statement": "The headers of a request are those of the lines the client sent: whatever the text and length of a header value, no part of it is read as a header, a session or an address of its own.", "quantifier": "all header sections with lines of any length", "why_tests_cant": "lines of any length", "anchors": ["ws.c:get_line", "ws.c:accept_request"]}
{"id": "C94", "title": "The request line is recorded as it was sent", "statement": "request_line, which the access log shows, is the first line the client sent without its line end, whether that is CR LF or LF.", "quantifier": "all request lines, both line ends, all lengths", "why_tests_cant": "all request lines", "anchors": ["ws.c:accept_request", "wayuu_log.c:log_access"]}
{"id": "C95", "title": "The server listens on the address and port it is given", "statement": "Whenever the program gets to serve clients, it listens on exactly the address of the last -b and the port of the last -p (or the defaults); a text that is not an address in dotted decimal or not a number from 1 to 65535 does not start a server elsewhere.", "quantifier": "all sequences of options, all texts, all decisions of the operating system", "why_tests_cant": "every text", "anchors": ["ws.c:ws_launch", "main.c:main"]}
{"id": "C96", "title": "The server starts exactly if what it needs is there", "statement": "Started with valid options, the program gets to accept connections if and only if it can open its log, has or can make the upload folder, can load certificate and key (unless -f), gets a socket, is given its port and may listen on it; then the last line of the log says so; otherwise it ends with a failure status before it accepts a client, and a line names the first thing that is missing.", "quantifier": "all options, file systems, answers of the operating system and of OpenSSL; all limits files whose paths fit their array", "why_tests_cant": "all combinations of what may be missing and fail", "anchors": ["ws.c:ws_launch", "ws.c:configure_context", "ws.c:create_context", "ws.c:wayuu_failed", "log.c:log_set_file", "main.c:main"]}
{"id": "C97", "title": "A program that embeds WAYUU serves static content from the documented folder only", "statement": "In a program linked with the library, which calls ws_launch after setting the root folder (or nothing), requests outside /api without '..' in their path are answered from files under root/www only.", "quantifier": "all root folders, requests, pairs of file trees", "why_tests_cant": "a difference between all pairs of file trees", "anchors": ["ws.c:handle_static_routes", "ws.c:ws_launch", "main.c:main"]}
{"id": "C98", "title": "A client that goes away harms nobody", "statement": "Clients may disconnect at any moment: the server goes on to serve the others, log, files and connection table are those of a server whose clients stay, and each client has received the beginning of the answer it would get alone.", "quantifier": "all sequences of requests, all moments at which each client goes away, standalone and embedded servers", "why_tests_cant": "all sequences and moments", "anchors": ["http_utils.c:http_print", "main.c:main", "ws.c:ws_connection_handler"]}
{"id": "C99", "title": "A handler is only run by requests of its method", "statement": "Through the whole server, a handler runs only for requests whose method is the one of a template it was registered with; so a plain link, which makes a browser send GET, cannot run a handler for DELETE or POST.", "quantifier": "all request lines, routing tables whose templates begin with METHOD:, headers and bodies", "why_tests_cant": "every URL", "anchors": ["ws.c:accept_request", "router.c:router_handle_request"]}
{"id": "C100", "title": "The access log names the client", "statement": "Every line a request without an X-Real-IP header adds to the access log begins with the address of the client it came from, the time and the request line as sent; and the limits per address count it under that address.", "quantifier": "all request lines, header sections, bodies, clients (connected or gone), stack contents, routing tables and handlers that log with the library", "why_tests_cant": "a client that resets its connection before a worker takes it from the queue", "anchors": ["ws.c:accept_request", "wayuu_log.c:log_access"]}
{"id": "C101", "title": "A handler can tell the fields of a form apart", "statement": "Two multipart forms with different fields give the handler different form strings; so the value of one field (or of a path parameter) can not pass for further fields, and a plain field not for an uploaded file.", "quantifier": "all bodies made of fields with names of the bytes 35 to 127 and values without NUL, all delimiters, all paths of a parameter route", "why_tests_cant": "every text a visitor may enter in a field", "anchors": ["ws.c:multipart_parse", "ws.c:part_parse", "router.c:router_handle_request"]}
{"id": "C102", "title": "A link to a file of the site leads to the file", "statement": "When a browser follows the link to a file under the static root, with the bytes of the name that have to be percent-encoded in a URL percent-encoded, the server sends the file.", "quantifier": "all file trees, file names without .. (other than the configured index and icon), contents", "why_tests_cant": "all names a file can have", "anchors": ["ws.c:accept_request", "ws.c:handle_static_routes", "http_utils.c:get_path_and_query_string"]}
{"id": "C103", "title": "Limits can not be sidestepped by another spelling of the URL", "statement": "If the limit rules refuse a request for a file of the site, they refuse every request for the same file, however its path is spelt and whatever the query.", "quantifier": "all rules, connection tables, clients, file trees and spellings of a path", "why_tests_cant": "all spellings, all states of the connection table", "anchors": ["ws.c:connection_validate", "ws.c:get_live_stats", "ws.c:handle_static_routes"]}
{"id": "C104", "title": "The access log says what happened", "statement": "The request, status, length, referer and user agent that a reader of the access log reads from a line (the texts between the quotes, the numbers between them) are those of the request and of the response that was sent.", "quantifier": "all requests, responses, user agents and referers", "why_tests_cant": "every text a client may send in the request line and in two headers", "anchors": ["wayuu_log.c:log_access", "ws.c:accept_request"]}
{"id": "C105", "title": "Clients that come and go leave no memory behind", "statement": "When the clients that connected are gone \u2013 turned away by the address filter, dropped because the queue is full, or answered \u2013 the server has allocated exactly what it had allocated before they came.", "quantifier": "all sequences of connections, all allow and deny files, all requests", "why_tests_cant": "growth over the life of the server; a test handles a few connections", "anchors": ["ws.c:ws_launch", "ws.c:allowed_address", "file_utils.c:find_in_file", "file_utils.c:read_file", "ws.c:accept_request"]}
{"id": "C106", "title": "What follows a request has no effect on it", "statement": "If a client sends a complete request (request line, header section up to a blank line, as many bytes as the last Content-Length line says) and then anything else, everything is as if it had sent the request only: the same answer, log, files, handlers, and even the same crash; what follows stays unread.", "quantifier": "all configurations, complete requests (with any headers), continuations and states", "why_tests_cant": "two runs are compared, for all requests and all continuations", "anchors": ["ws.c:accept_request", "ws.c:get_line", "ws.c:handle_api_request"]}
{"id": "C107", "title": "Who sends a second request over the connection is answered or told", "statement": "A client that sends two requests over one connection, as HTTP/1.1 allows unless told otherwise, has the second one looked at, or finds Connection: close in the answer to the first.", "quantifier": "all configurations, pairs of complete requests and states", "why_tests_cant": "all pairs of requests; the absence of a header from all answers", "anchors": ["ws.c:accept_request", "ws.c:connection_close", "http_utils.c:send_http_status"]}
{"id": "C108", "title": "The order of header lines does not matter", "statement": "If the lines of a header section (different names, at most 20, names under 64 and values under 256 bytes) come in another order, the body, its length, the multipart boundary, the client address, the session and the value of every header are the same.", "quantifier": "all header sections, permutations and earlier contents of the line buffer", "why_tests_cant": "all permutations of all sections; includes what is left in a buffer by earlier lines", "anchors": ["ws.c:accept_request", "http_utils.c:http_get_header"]}
{"id": "C109", "title": "The blank after the colon of a header line is optional", "statement": "If the blank after the colon is left out in all header lines, everything is read the same: body, length, boundary, address, session, value of every header.", "quantifier": "all header sections and earlier contents of the line buffer", "why_tests_cant": "two runs are compared for all sections", "anchors": ["ws.c:accept_request"]}
{"id": "C110", "title": "Blanks in the limits file do not matter", "statement": "A file of up to 64 lines 'path, connections, connections per address, seconds' with blanks around any of the fields (as in the example of the documentation) gives exactly the rules written in it.", "quantifier": "all limits files of this form, all blanks", "why_tests_cant": "all placements of blanks in all lines; the effect of a rule that was read wrongly shows only under load", "anchors": ["ws.c:load_limits", "ws.c:connection_validate"]}
{"id": "C111", "title": "A limit rule concerns its path and what is below it only", "statement": "A request whose URL is neither the path of a rule nor below it (nor one of these with a query) is handled as if there were no such rule.", "quantifier": "all rule sets, rules, requests and states of the connection table", "why_tests_cant": "two servers with different rules are compared for all requests and loads", "anchors": ["ws.c:connection_validate", "ws.c:get_live_stats", "string_utils.c:startswith"]}
{"id": "C112", "title": "A page answered with 200 comes with its file", "statement": "If the server answers a request for a page with status 200, the response ends with the content of the file for that page (the page itself, or the site index if there is no such file).", "quantifier": "all settings, file trees (with permissions), pages and states", "why_tests_cant": "a file without read permission, in all combinations with page and index", "anchors": ["ws.c:handle_static_routes", "http_utils.c:direct_file", "http_utils.c:return_file"]}
{"id": "C113", "title": "A request for which there is not enough memory does not end the server", "statement": "A request that the server could serve is served, or turned down, when the memory for its body cannot be obtained; the process goes on.", "quantifier": "all patterns of refused allocations, settings, requests and states", "why_tests_cant": "out of memory cannot be provoked at each allocation for each size a client may announce", "anchors": ["ws.c:handle_api_request", "ws.c:multipart_parse"]}
{"id": "C114", "title": "Requests that are not clear about the length of their body are turned down", "statement": "If a request has a Transfer-Encoding, two different Content-Lengths, or a Content-Length that is not a number the server can represent, no handler runs for it (a proxy in front of the server may see another body).", "quantifier": "all API requests that reach a route, all header sections and bodies", "why_tests_cant": "all combinations of header lines and spellings of lengths", "anchors": ["ws.c:accept_request", "ws.c:handle_api_request"]}
{"id": "C115", "title": "The server itself writes no file outside of the upload folder", "statement": "Whatever a client sends, handling the request changes no file of the server except the folder for uploads and files in it named after the thread and a digest; any other change was made by a handler or filter of the application. With the digest size of the crypto library, a request for which no user code runs changes nothing at all.", "quantifier": "all settings, trees, requests, connection states and sets of files user code may change", "why_tests_cant": "all requests and file trees", "anchors": ["ws.c:save_tmp_file", "ws.c:part_parse", "ws.c:multipart_parse", "file_utils.c:write_file", "file_utils.c:check_createdir"]}
{"id": "C116", "title": "Settings files that cannot be opened are reported", "statement": "parse and write_conf return -1 for every path at which no file can be opened; no handler is called and no file is changed.", "quantifier": "all file trees, paths, flags and items", "why_tests_cant": "all lengths of path names", "anchors": ["conf_parser.c:parse", "conf_parser.c:write_conf"]}
{"id": "C117", "title": "A stop while settings are saved does not lose them", "statement": "If the server stops at any moment while write_conf saves settings, or another thread reads meanwhile, parse reads the old or the new settings, all of them.", "quantifier": "all clean items, trees and moments", "why_tests_cant": "the process cannot be stopped at each moment for each set of settings", "anchors": ["conf_parser.c:write_conf", "conf_parser.c:parse"]}
{"id": "C118", "title": "Saved values never turn into other settings", "statement": "Whatever values settings with proper keys are given, write_conf followed by parse hands over exactly the keys that were saved, in order; a value cannot add, change or hide another setting.", "quantifier": "all values, lists of items and trees", "why_tests_cant": "all values, in particular those that users of the application choose", "anchors": ["conf_parser.c:write_conf", "conf_parser.c:conf_item_to_string", "conf_parser.c:parse"]}
{"id": "C119", "title": "serializable_to_string shows all of a settings object", "statement": "serializable_to_string returns [path=P,n_items=N,...] with every item of the object as key=value, or key=element,element,... for a list, in order, whatever the number and size of the items, and never leaves the block it writes to.", "quantifier": "all paths and lists of items", "why_tests_cant": "all sizes: the block has 1024 bytes", "anchors": ["conf_parser.c:serializable_to_string", "conf_parser.c:conf_item_to_string"]}
{"id": "C120", "title": "Session tokens do not get into the server log", "statement": "At the two levels the command line can set (default and -d), two requests that are the same but for their X-Session, Authorization and Cookie lines leave the same messages in the server log: nothing in it depends on a client's session token.", "quantifier": "all configurations, server states, requests and pairs of tokens", "why_tests_cant": "a non-interference statement over pairs of requests; a test looks at one token", "anchors": ["ws.c:handle_api_request", "ws.c:accept_request", "http_utils.c:direct_file", "router.c:router_handle_request"]}
{"id": "C121", "title": "Each message takes one line of the server log", "statement": "At the two levels the command line can set, every message a request leaves in the server log is a single line, whatever the client sends; so no client can split or forge entries.", "quantifier": "all configurations without line breaks, server states, requests", "why_tests_cant": "all request bytes", "anchors": ["ws.c:accept_request", "ws.c:part_parse", "ws.c:save_tmp_file", "http_utils.c:direct_file"]}
{"id": "C122", "title": "Who sends a whole request gets the whole answer", "statement": "When the server closes a connection it has read all of a request that was sent as announced (request line, header section, body of the announced length). TCP resets a connection that is closed with unread input, and a reset can take the answer away from the client, so only then is the answer sure to arrive.", "quantifier": "all configurations, server states, requests within the limits of the parser, user code that does not read the socket itself", "why_tests_cant": "what is unread depends on the path a request takes; on a fast local connection the loss does not show", "anchors": ["ws.c:accept_request", "ws.c:connection_close", "ws.c:handle_api_request", "http_utils.c:too_many_connections"]}
{"id": "C123", "title": "One request cannot flood the server log", "statement": "At the default level a request leaves no more messages in the server log than it has bytes, whatever it announces.", "quantifier": "all configurations, server states and requests", "why_tests_cant": "the number of messages grows with a number in the request, not with the request; a test would have to guess the combination of boundary, length and body", "anchors": ["ws.c:part_parse", "ws.c:multipart_parse", "ws.c:handle_api_request", "log.c:__logger"]}
{"id": "C124", "title": "No header value is too long", "statement": "An admitted request is answered whatever the lengths of the values of its headers: a request for a file of the site gets that file.", "quantifier": "all configurations, server states and requests", "why_tests_cant": "servers are tested with the headers of ordinary browsers; the failing lengths of two particular headers have to be known in advance", "anchors": ["http_utils.c:http_get_header", "wayuu_log.c:log_access", "http_utils.c:direct_file"]}
{"id": "C125", "title": "The work of taking in a request is in proportion to it", "statement": "The number of bytes the server looks at, copies or asks for while it takes in the body of a request is at most a million times the number of bytes the client sends.", "quantifier": "all configurations, server states and requests", "why_tests_cant": "the work of a body depends on the contents of the body; test bodies have few parts, and a slow request looks like a slow machine", "anchors": ["ws.c:multipart_parse", "ws.c:part_parse", "ws.c:handle_api_request"]}
{"id": "C126", "title": "A file is delivered whole whatever its size", "statement": "A request for a file of the site is answered with all bytes of the file, however large it is; the same holds of JSON texts and streams.", "quantifier": "all configurations, file trees, requests and file sizes", "why_tests_cant": "a test would need a file of more than two gigabytes; up to there every size works", "anchors": ["http_utils.c:return_file", "http_utils.c:direct_file", "http_utils.c:http_print", "http_utils.c:send_stream", "http_utils.c:return_json_with_status"]}
{"id": "C127", "title": "The order in which routes are registered does not matter", "statement": "Registering the same routes (with different templates) in another order does not change what any request leads to.", "quantifier": "all lists of routes, their permutations, all requests", "why_tests_cant": "a test registers its routes in one order; with overlapping templates an order that works and one that does not look alike", "anchors": ["router.c:router_add_route", "router.c:router_handle_request"]}
{"id": "C128", "title": "A route may have text after its parameter and any characters before it", "statement": "A request for PRE v TAIL is given to the handler registered for PRE{name}TAIL, with name=v.", "quantifier": "all templates, values and requests", "why_tests_cant": "the template is accepted without a complaint; only a request shows what became of it", "anchors": ["router.c:router_resolve_route", "router.c:router_extract_param", "router.c:router_add_route"]}
{"id": "C129", "title": "The threads of the server never race", "statement": "In no execution do two threads access the same memory, one of them writing, without one access happening before the other (C11 5.1.2.4): so no access of the server has undefined behaviour because of another thread.", "quantifier": "all levels of logging, configurations, numbers of workers and connections, courses of requests and interleavings", "why_tests_cant": "an interleaving with a race usually gives the right result; a test sees one schedule", "anchors": ["ws.c:ws_launch", "ws.c:ws_queue_get", "ws.c:connection_add", "ws.c:connection_del", "log.c:__logger", "log.c:format_ts_common_log", "string_utils.c:split"]}
{"id": "C130", "title": "Only GET, POST, PUT and DELETE reach the API", "statement": "A request whose method is not one of GET, POST, PUT and DELETE runs no filter and no handler, whatever its URL and whatever routes are registered (each template begins with one of the four methods and a colon).", "quantifier": "all method words, URLs, headers, routes and configurations", "why_tests_cant": "the method words are infinitely many; tests send the usual ones", "anchors": ["ws.c:accept_request", "ws.c:handle_api_request", "router.c:router_handle_request", "string_utils.c:startswithany"]}
{"id": "C131", "title": "No thread is stuck for want of the mutex", "statement": "Whoever holds ws_mutex gives it back after a bounded number of steps during which it waits for nothing; so a thread that wants it gets on, and no interleaving of the accept loop and the workers leads to a state from which they cannot finish what they have to do.", "quantifier": "all levels of logging, numbers of workers, connections, courses of requests and interleavings", "why_tests_cant": "deadlocks show in few of the interleavings; a test sees one schedule", "anchors": ["ws.c:ws_launch", "ws.c:ws_queue_get", "ws.c:ws_connection_handler"]}
{"id": "C132", "title": "A handler finds the media type of the body in content_type", "statement": "When a handler or filter runs, req->content_type is the media type of the last Content-Type header of the request (without parameters and without white space around it), or NULL when there is none.", "quantifier": "all requests, header sections, routes and user code", "why_tests_cant": "comparing content_type with the name of a format works in a unit test that fills in the request by hand; what the parser leaves there depends on every byte of the line", "anchors": ["http_utils.h:api_request", "ws.c:accept_request", "string_utils.c:rtrim"]}
{"id": "C133", "title": "A path parameter stands for one segment of the path", "statement": "When a handler runs for a route METHOD:/prefix/{name}, the part of the path that took the place of {name} is not empty and has no slash: pages below /prefix/value/ are not given to the handler of /prefix/{name}.", "quantifier": "all routing tables, requests and user code", "why_tests_cant": "a unit test asks for the paths the route was written for; that no deeper path is taken by it is about every path and every table", "anchors": ["router.c:router_resolve_route", "router.c:router_extract_param", "router.c:router_handle_request"]}
{"id": "C134", "title": "A request that was cut off is not carried out", "statement": "If the connection ends before the request is complete (no blank line after the headers, or fewer bytes than the Content-Length says), no handler and no filter runs, and the server is not harmed.", "quantifier": "all inputs, all places where the connection can end, all routes and user code", "why_tests_cant": "a unit test sends whole requests; the connection can end after any byte of any request", "anchors": ["ws.c:accept_request", "ws.c:get_line", "router.c:router_handle_request"]}
{"id": "C135", "title": "A page hands out the session of its visitor and no other", "statement": "The answer with a page carries the session of the request (its X-Session or Authorization header, or its WSSESSION cookie) in an X-Session and a Set-Cookie line, and neither of them if the request has no session.", "quantifier": "all header sections, pages, configurations and file systems", "why_tests_cant": "a unit test sends one header; other cookies and credentials of the browser are in any number and order in real requests", "anchors": ["http_utils.c:return_headers", "ws.c:accept_request"]}
{"id": "C136", "title": "http_log_headers shows all the headers of the request", "statement": "A handler or filter that calls http_log_headers finds in the server log the number of headers of the request and a message with the name and value of each, in order; nothing is logged unless the debug level is enabled.", "quantifier": "all requests, header sections and levels", "why_tests_cant": "a unit test logs a few short headers; names and values can be of any length and number", "anchors": ["http_utils.c:http_log_headers", "ws.c:accept_request"]}
{"id": "C137", "title": "The result of http_get_header belongs to the caller", "statement": "A handler or filter can free what http_get_header returned, whether the request has the header or not.", "quantifier": "all requests, header sections and names", "why_tests_cant": "a unit test asks for a header that is there; whether it is there is up to the client", "anchors": ["http_utils.c:http_get_header"]}
{"id": "C138", "title": "Who is on the deny list gets no service", "statement": "In the running server, a client whose address is a line of etc/deny at the moment it connects is disconnected and its request is never handled, whatever the other clients, the threads and the administrator do before and after.", "quantifier": "all schedules, clients, requests and changes of the files", "why_tests_cant": "a unit test calls the filter alone; whether a refused connection can still reach a worker depends on queue, schedule and reuse of descriptors", "anchors": ["ws.c:allowed_address", "ws.c:ws_launch", "ws.c:accept_request"]}
{"id": "C139", "title": "Every admitted client is served once, with its own request", "statement": "When the server has come to rest, each client that passed the address filter has been served exactly once, with the bytes it sent and its own address, although descriptors are used again.", "quantifier": "all schedules, clients, queue and pool sizes", "why_tests_cant": "which connection a descriptor stands for depends on the schedule; tests see a few schedules", "anchors": ["ws.c:ws_launch", "ws.c:accept_request"]}
{"id": "C140", "title": "A visitor gets the page they asked for, whatever the others do", "statement": "In the running server, when it has come to rest, every admitted visitor who asked for a page of the site with an ordinary GET request has got exactly that page.", "quantifier": "all schedules, requests of other clients, queue and pool sizes, pages", "why_tests_cant": "the claim is about one client among all possible others and all schedules", "anchors": ["ws.c:ws_launch", "ws.c:accept_request", "ws.c:handle_static_routes", "http_utils.c:direct_file"]}
{"id": "C141", "title": "A server that says it is running serves its clients", "statement": "Whenever the program gets to its accept loop (and reports that it is running), every client that it admits and has room for is served.", "quantifier": "all options, file systems and answers of the operating system, all later schedules and clients", "why_tests_cant": "the operating system may refuse any of 200 threads; a test run gets them all", "anchors": ["ws.c:ws_launch", "ws.c:ws_connection_handler", "ws.c:ws_queue_get", "main.c:main"]}
{"id": "C142", "title": "Every API call that is admitted is carried out exactly once", "statement": "If all clients call the API (well-formed requests for registered routes without a filter), then once the server has come to rest the handlers that were run are, up to order, exactly one per admitted client, each on the method, path, query, header fields and body that this client sent.", "quantifier": "all clients and what they send, all schedules of the accept loop and the workers, all orders of arrival and reuse of descriptors", "why_tests_cant": "interleavings of many clients cannot be enumerated, and a lost or doubled call shows only under some of them", "anchors": ["ws.c:ws_launch", "ws.c:ws_queue_get", "ws.c:ws_connection_handler", "ws.c:accept_request", "router.c:router_handle_request"]}
{"id": "C143", "title": "No admitted client waits for ever", "statement": "If the threads are scheduled fairly (a thread that can always go on does go on; handling a connection ends), spurious wake-ups come to an end and the process does not end, then every client that passed the address filter is served at some time, even if new clients keep coming for ever.", "quantifier": "all endless fair executions of the accept loop, the workers and the clients, all client behaviour, all capacities and numbers of workers", "why_tests_cant": "liveness over endless executions cannot be observed by a finite test, and starvation shows only under particular schedules", "anchors": ["ws.c:ws_launch", "ws.c:ws_queue_get", "ws.c:ws_connection_handler", "ws.c:ws_create_queue"]}
{"id": "C144", "title": "What is done for a client is done to that client's connection", "statement": "With and without TLS, and however the threads interleave and descriptor numbers and addresses of TLS objects are used again: every handshake, read, write, shutdown and close done for a client reaches that client's connection; no TLS object is used after it was freed or freed twice; each client sees one handshake (with TLS), then reads and writes, then one shutdown (with TLS), then one close, in that order; and when nobody is being looked after no TLS object is left, every connection that was served or turned away is closed, and the only connections still open are those that found the queue full.", "quantifier": "all interleavings of the accepting thread and any number of workers, all numbers accept may return, all addresses SSL_new may return, both modes", "why_tests_cant": "mixing up two clients or using a freed object needs a particular interleaving together with the reuse of a descriptor or address", "anchors": ["ws.c:accept_request", "ws.c:connection_close", "ws.c:ws_launch", "ws.c:ws_connection_handler", "http_utils.c:http_read_char", "http_utils.c:http_print"]}
{"id": "C145", "title": "No request makes the server leave defined behaviour", "statement": "On a server that is set up well (limit rules, file names and routes within their arrays, an index page, files of less than 2 GB, user code that is defined and answers with the functions of the library), every connection is handled to its end whatever bytes the client sends: no array is overrun or read past its end, nothing uninitialised is used.", "quantifier": "all byte sequences a client can send, all servers set up well, all tables of live connections", "why_tests_cant": "a test sends some requests; one that overruns an array by a byte usually shows nothing, and the lengths and numbers that matter (254, 1024, 50 pieces, 74 and 256 bytes, forms next to parameters) are spread over six functions", "anchors": ["ws.c:accept_request", "ws.c:handle_api_request", "ws.c:handle_static_routes", "router.c:router_handle_request", "http_utils.c:get_path_and_query_string"]}
{"id": "C146", "title": "A connection that is turned away leaves its reason in the server log", "statement": "When a connection is turned away (429), the server log holds exactly one message about it, which names the address and the rule that is exceeded (the first one in the order of the file; the total before the number per address), or says that the table of connections is full.", "quantifier": "all limit rules, all tables of live connections, all requests, both log levels the command line can set", "why_tests_cant": "a test provokes one refusal and looks at one line; which of several exceeded rules is named, and that nothing else is ever written, concerns all tables and rules", "anchors": ["ws.c:connection_validate", "ws.c:connection_add", "log.c:__logger"]}
{"id": "C147", "title": "Nothing that clients do can take the server out of defined behaviour", "statement": "In every state the running server can get to, whatever clients have connected and sent and in whatever order its threads have run, no step of any thread is undefined behaviour.", "quantifier": "all clients and inputs, all schedules of the accept loop and the workers, all descriptor numbers, all queue capacities and numbers of threads, all changes of the files", "why_tests_cant": "a test runs one schedule with some clients; a crash takes down everybody's requests, so the question is which states and clients can ever lead to one", "anchors": ["ws.c:ws_launch", "ws.c:ws_connection_handler", "ws.c:accept_request", "ws.c:allowed_address", "file_utils.c:find_in_file"]}
{"id": "C148", "title": "What a connection leads to is determined by its bytes, the routes, the limits and the site", "statement": "Whenever a connection is handled to its end, exactly one of these has happened, and which one follows from the bytes sent, the registered routes, the limits and live connections and the files of the site alone: an answer 400 or 429 without content; the page asked for, with the session of the client; or one call of the handler of the first route that matches (after its filter, if it has one) with the method, path, query, headers, session, address, media type and form that the bytes carry. In each case the socket is closed once and nothing else is sent.", "quantifier": "all byte sequences, all route tables, limits, live tables and sites, all handlers that respond and are defined", "why_tests_cant": "the outcome is a function of unboundedly many bytes through nine stages of parsing; a test fixes one input, and says nothing about two inputs being treated alike or about a second outcome being possible", "anchors": ["ws.c:accept_request", "ws.c:handle_api_request", "ws.c:handle_static_routes", "http_utils.c:get_path_and_query_string", "router.c:router_handle_request", "http_utils.c:direct_file"]}
{"id": "C149", "title": "In the running server, what is done for a client follows from what that client sends", "statement": "As long as requests do not overlap in time, every client that is served gets what its own bytes lead to on an idle server with the files of that moment: the answer, page or call that C148 describes, and never a second one. What other clients send or have sent, the order in which the threads run, the descriptor the client got and the number of connections so far make no difference; two servers with the same routes, limits and site treat the same client alike.", "quantifier": "all clients and inputs, all schedules of the accept loop and the workers, all descriptor numbers, all queue capacities and numbers of threads, all changes of the files between requests", "why_tests_cant": "a test sees one history before a request; that no history leaves anything behind (a table entry, a session, bytes of a buffer) that changes a later answer is a statement about all of them", "anchors": ["ws.c:accept_request", "ws.c:ws_connection_handler", "ws.c:ws_launch", "ws.c:connection_add", "ws.c:connection_close"]}
{"id": "C150", "title": "Requests that overlap do not get into each other's answers", "statement": "Several requests are in progress at the same time and take turns at the steps reading the request line, asking for admission, reading the header section, carrying out, closing, leaving the table of connections. Whatever the others do between two steps of a request, a request that gets through has got exactly what its own bytes lead to (C148) with the connections there were when it asked for admission and the files there were when it was carried out. If a step of a request leaves defined behaviour, its own client has sent something that leads there. The open descriptors are those of the requests that have not closed theirs, no two share one, and each is closed once, by its own request.", "quantifier": "all numbers of requests in progress, all inputs, all orders of their steps, all descriptor numbers, all connection tables at the start, all changes of the files in between", "why_tests_cant": "a load test sees some orders of the steps; that none of them mixes up two requests is a statement about all of them", "anchors": ["ws.c:accept_request", "ws.c:connection_add", "ws.c:connection_del", "ws.c:connection_close", "ws.c:handle_api_request"]}
{"id": "C151", "title": "The access log tells of each connection what its own bytes lead to", "statement": "Whenever the handling of a connection comes to its end, the access log has got exactly one new line (none if the log file cannot be opened), unless the connection led to user code. The line has the address of the visitor, the request line without its line break, the status and the number of bytes sent (C148), and, if the request was admitted, the Referer and User-Agent among the first 20 headers; user code adds the lines it adds itself. The log of the running server is made of these entries in the order in which the clients were served; if requests overlap, in the order in which they were answered. There is nothing else in it, and nobody's entry is missing.", "quantifier": "all inputs, connection tables, registrations, server setups that are sound; all runs of the server; all orders of the steps of overlapping requests", "why_tests_cant": "a test can compare some log lines; that nobody's line is missing, doubled or told about somebody else is a statement about all inputs and orders", "anchors": ["wayuu_log.c:log_access", "http_utils.c:send_http_status", "http_utils.c:return_json_with_status", "ws.c:accept_request"]}
{"id": "C152", "title": "It is the requests in progress that decide whether there is room for one more", "statement": "Several requests are in progress at the same time (C150). The table of connections has one entry for each request that was admitted and is not through, with its descriptor, address and URL, and no others. So a request is turned away with 429 if and only if, at the moment it asks, the requests that have been admitted and are not through fill the table or exceed a rule for its URL, in total or from its address. When no request is in progress, all of the table is free.", "quantifier": "all numbers of requests in progress, all inputs, all orders of their steps, all descriptor numbers the system may hand out, all limits, table sizes and files", "why_tests_cant": "the number of requests in progress depends on the order of their steps; tests see a few orders and do not see which descriptors are reused", "anchors": ["ws.c:connection_add", "ws.c:connection_del", "ws.c:connection_close", "ws.c:connection_validate", "ws.c:accept_request"]}
{"id": "C153", "title": "Connections are taken up in order, each by one worker, and no more at a time than there are workers", "statement": "The server is running: clients connect, the address filter is asked, the queue hands the connections to the workers, and each worker goes through the steps of its request (those of C150, each taken whole) while the other threads run. Connections are taken up in the order in which they were accepted, each at most once, by one worker that stays with it until it is through, and only those that passed the filter. Nothing is done for a connection that has not been taken up. At no time are more requests in progress than there are workers. So if the table of connections has at least as many entries as there are workers, a request is never turned away for want of an entry, only by a configured limit.", "quantifier": "all numbers of workers, queue sizes, table sizes, numbers of clients, inputs, descriptor numbers the system may hand out, files and all orders of the steps of all threads", "why_tests_cant": "the order in which threads run is chosen by the scheduler; tests see a few orders", "anchors": ["ws.c:ws_launch", "ws.c:ws_connection_handler", "ws.c:ws_queue_get", "ws.c:accept_request", "ws.c:connection_add"]}
{"id": "C154", "title": "A server with its workers gives each client it takes what its own bytes lead to, and takes each unless the queue is full", "statement": "In the running server of C153 a client whose request is through has got exactly what its own bytes lead to (C148), with the connections there were when it asked for admission and the files there were when it was carried out. The threads take only boundedly many steps before another client connects, whatever their order; then the server is at rest, and every client that passed the filter has been served exactly once, except those that found the queue full, of which nothing was read. That happens only when as many connections wait as the queue has places. A step leaves defined behaviour only within a request, and only because of what the client of that very request sent.", "quantifier": "all numbers of workers, queue sizes, numbers of clients, inputs, descriptor numbers the system may hand out, files and all orders of the steps of all threads", "why_tests_cant": "no test can go through all orders of the steps of the threads, nor see that no client is forgotten or served twice in any of them", "anchors": ["ws.c:ws_launch", "ws.c:ws_connection_handler", "ws.c:ws_queue_get", "ws.c:accept_request", "ws.c:allowed_address"]}
{"id": "C155", "title": "What the running server lets in and leaves behind", "statement": "The running server of C153, with the address lists shorter than 8192 bytes. A client gets into the queue if and only if the lists let its address in at the moment it connects (not in the deny list; in the allow list if there is one), whatever the workers are doing; nothing is read from, sent to or done for anybody else. The access log holds, for each client that was answered and in the order of the answers, exactly the lines that tell of its own request (C151). When the server has come to rest, these are the clients that were taken from the queue, each once; all of the table of connections is free, and the connections that are still open are those that found the queue full.", "quantifier": "all numbers of workers, queue and table sizes, numbers of clients, addresses, inputs, descriptor numbers, changes of the files and all orders of the steps of all threads", "why_tests_cant": "tests see a few orders of the steps of the threads, and what is forgotten in the log, the table or the descriptors shows only after a long time", "anchors": ["ws.c:ws_launch", "ws.c:allowed_address", "ws.c:ws_connection_handler", "ws.c:accept_request", "ws.c:connection_del", "wayuu_log.c:log_access"]}
{"id": "C156", "title": "No admitted client waits for ever while requests overlap", "statement": "The running server of C153, followed for ever. If its threads are scheduled fairly, spurious wake-ups come to an end and the process does not end, then the request of every client that passed the address filter is through at some time, however many others keep coming and however the steps of their requests overlap.", "quantifier": "all endless fair schedules of all threads; all numbers of workers, queue sizes, clients, inputs, descriptor numbers and changes of the files", "why_tests_cant": "a statement about endless executions is out of reach of tests, which see finite ones", "anchors": ["ws.c:ws_launch", "ws.c:ws_connection_handler", "ws.c:ws_queue_get", "ws.c:accept_request"]}
{"id": "C157", "title": "The server log tells how an API request was routed", "statement": "At every level the command line can set, the server log says for each API request: that it is being routed, with method and path; if the registration that is taken (the earliest one that matches) has a parameter, the text that was matched, the prefix and the name of the parameter; and if there is no handler for it, that there is none, with the address and the URL. Nothing else is said by the router.", "quantifier": "all routing tables, methods, paths, addresses and URLs", "why_tests_cant": "a missing or wrong message shows only for the table entries and paths a test tries", "anchors": ["router.c:router_handle_request", "router.c:router_extract_param", "router.c:reject_routing_request", "log.c:__logger"]}
{"id": "C158", "title": "Asking for help or for the version shows it and starts nothing", "statement": "If -h or -v is on the command line the program writes the usage text of the README (with a line for -v) or the version and a line end to standard output, and nothing else, starts no server, writes no log file, and ends with success, whatever other options there are. An unknown option is named on standard output and ends the program with an error. A start writes nothing to standard output. The usage text explains every option the program accepts and no other.", "quantifier": "all command lines (lists of words), file trees and times", "why_tests_cant": "which command lines show what depends on all combinations of words, attached values and clusters of letters", "anchors": ["main.c:main", "main.c:print_usage", "log.c:__logger"]}
{"id": "C159", "title": "Joining and splitting undo each other", "statement": "Elements that do not contain the delimiter, joined with join, are given back by split with the same delimiter; and the parts that split returns, joined with the delimiter, give the text that was split (as long as split returns at all: at most 50 parts, each shorter than 1023 bytes).", "quantifier": "all lists of elements, texts and delimiters", "why_tests_cant": "whether the way there and back is lossless depends on where delimiters stand, for all texts", "anchors": ["string_utils.c:join", "string_utils.c:split"]}
{"id": "C160", "title": "A program's own socket handler gets each connection", "statement": "A program that passes a socket handler to ws_launch gets one call of it for each client that passes the address filter and finds room in the queue, in the order of arrival and with that client's descriptor; nobody else causes a call and accept_request is not called. The descriptor is open at the call and stays open and that client's until the program closes it, whatever the server does meanwhile. With NULL the connections go to accept_request. (C66 is about those that find the queue full.)", "quantifier": "all handlers, clients, results of the address filter, numbers the descriptors get, orders of the threads' steps and moments at which the program closes a descriptor", "why_tests_cant": "which worker gets a connection and which descriptors are used again depends on the schedule", "anchors": ["ws.c:ws_launch", "ws.c:ws_connection_handler", "ws.c:ws_queue_get"]}
{"id": "C161", "title": "What the disk did not take is reported", "statement": "If the disk takes only a part of a file that write_file is to write, write_file logs an error; if it takes only a part of the settings, write_conf does not return 0.", "quantifier": "all file names, contents, trees, settings, upload bodies and numbers of bytes the disk takes", "why_tests_cant": "a test does not run on a full disk, and at which byte the disk is full is up to others", "anchors": ["file_utils.c:write_file", "conf_parser.c:write_conf", "ws.c:save_tmp_file", "ws.c:multipart_parse"]}
{"id": "C162", "title": "A page that is changed while it is delivered arrives as it was or as it has become", "statement": "A GET request for a file of the site that others change meanwhile is answered by the bytes the file had at one moment of the delivery: when it was opened, when its length was taken or when it was read.", "quantifier": "all requests for files of the site, trees at the time a file is looked for and at the time it is opened, and changes of the file between opening it, taking its length and reading it", "why_tests_cant": "a change falls between two adjacent calls of the server, which a test cannot arrange", "anchors": ["http_utils.c:return_file", "http_utils.c:direct_file", "ws.c:handle_static_routes"]}
{"id": "C163", "title": "The access log can be renamed while the server runs", "statement": "While threads serve requests and write their lines, the access log may be renamed at any moments, as programs that rotate logs do: no line is lost, doubled or split over two files, the lines of each thread keep their order across the files, and a renamed file that no thread has open does not change any more.", "quantifier": "all requests, numbers of threads, schedules and moments of renaming", "why_tests_cant": "the moment falls between the opening of the file and the writing of a line, which a test cannot arrange", "anchors": ["wayuu_log.c:log_access"]}
{"id": "C164", "title": "A full disk costs the access log nothing but the lines it does not take", "statement": "A line of the access log that the disk takes whole stands on a line of its own, whatever became of the lines before it.", "quantifier": "all requests, numbers of threads, schedules, and numbers of bytes that the disk takes of each line", "why_tests_cant": "a test does not run on a full disk, and at which byte the disk is full is up to others", "anchors": ["wayuu_log.c:log_access"]}
{"id": "C165", "title": "The server log can be renamed while the program runs", "statement": "When the file of the server log is renamed while the program runs, the messages before the renaming stay in the renamed file and those after it are in a file under the old name.", "quantifier": "all programs, levels, messages and names", "why_tests_cant": "the messages after a renaming are looked for days later, under the name that the program was given", "anchors": ["log.c:log_set_file", "log.c:__logger"]}
{"id": "C166", "title": "The log file can be set as often as one likes", "statement": "A program that sets the file of its log again, to another file or to the same one after a renaming, goes on, however often it does so.", "quantifier": "all sequences of calls and renamings and all limits of open files", "why_tests_cant": "a test sets the file a few times; the limit is reached after a thousand", "anchors": ["log.c:log_set_file"]}
{"id": "C167", "title": "A request may name the whole URL", "statement": "A request whose request line names the whole URL (http://HOST/PATH), as HTTP/1.1 allows, is answered as the request for /PATH: the same page, the same handler, under the same limits.", "quantifier": "all hosts, paths, methods, routes, limits and file trees", "why_tests_cant": "browsers send the short form, so tests never meet the long one, which proxies and other clients send", "anchors": ["ws.c:accept_request", "ws.c:handle_static_routes"]}
