# Formal model of scanoss/wayuu in Lean 4

## 1. What is here

* `properties.jsonl` – the English properties (C01 …), generated by `tools/gen_props.py`.
* `lean/Verif/Base.lean`, `lean/Verif/Libc.lean`, `lean/Verif/Model/Fs.lean` – bytes, memory blocks,
  undefined behaviour, libc, file system. No code of the repository.
* `lean/Verif/Model/*.lean` – the model of the repository's code, one file per C file, one
  definition per C function (loops become auxiliary recursive definitions). Every definition cites
  file and lines in `/repo`.
* `lean/Verif/Spec/*.lean` – small independent specifications (what "trimmed", "well-formed HTTP
  response", "valid JSON", "live under a path", … mean). They do not use the model's functions; some import the
  types of the model's states and events, which they talk about, and constants of the code.
* `lean/Verif/Lemmas/*.lean` – helper lemmas.
* `lean/Verif/Props/*.lean` – the property theorems, each with an `example` exhibiting a concrete
  non-trivial case that meets its hypotheses.
* `lean/Verif/Check/RepoTests.lean` – the assertions of the project's own unit tests (`/repo/test`), put to the
  model as evaluated examples: all come out as the authors expect, except that the upload test runs into
  the overflow of C12, which the test does not notice.
* `MANIFEST.json` – property → theorem names, status (generated by `tools/gen_manifest.py`).
* `seeded/LOG.jsonl` – the wrong programs the theorems were tested against (section 7).
* `tools/gen_axioms.py` – prints the table of section 3.1.

## 2. Modelling conventions

* **Platform.** x86-64 Linux, glibc, "C" locale (the program never calls `setlocale`). A `char` is a
  `UInt8`; where C compares signed chars (`data[i] <= 34`, `*tmp > 0`) the model compares the signed
  value. `isspace`/`isalnum`/`tolower` are the ASCII tables, `false`/identity on bytes ≥ 128. (The
  code passes a negative `char` to them, which the C standard leaves undefined; glibc's tables cover
  that range, and the model follows glibc.)
* **Undefined behaviour is a value.** Every function returns `C α`, either `ok a` or `ub fault` with
  `fault` one of: out-of-bounds access, read of indeterminate memory, null dereference, bad `free`,
  signed overflow. A run that reaches UB stops with that outcome, so a theorem of the form
  `f x = ok y` includes the absence of UB.
* **Memory.** A memory block is `Buf := List (Option Byte)`: its length is the allocated size and
  `none` is an indeterminate cell. Loads, stores, `strlen`, `memcpy`, `strncpy`, … are bounds-checked
  against it. Functions whose behaviour depends on stale or uninitialised bytes (`trim`, `get_line`,
  `part_parse`, `multipart_parse`, header parsing, `md5sum`, …) are modelled on blocks; functions that
  only build a fresh string are modelled on byte lists with an explicit capacity check
  (`fmtInto cap s`: a `sprintf` into a block of `cap` bytes).
* An object accessed through its declared array type is bounded by that array (e.g. `value[256]`
  inside `header_t`): running past it is UB although the neighbouring member exists.
* **Stack garbage.** `handle_static_routes` tests an uninitialised array. There the previous contents
  are a parameter of the environment (`Env.junk`, arbitrary defined bytes) instead of `none`, so the
  theorems can say what happens for each content. The same for the address structure of `accept_request`
  (`Model/Peer.lean`).
* **Integers.** `int`/`long` lengths are unbounded integers, except where wrap-around or overflow is
  observable: `atoi` (saturation at `long`, truncation to `int`), `uint32_t response_length`, the `int`
  accumulators of `send_stream` and `direct_file`, `htons(port)`, and the `int` length parameter of
  `http_print` (a longer length wraps; a negative one is UB, hence the 2 GiB conditions). The `int` block
  sizes of `join` and `json_array_of_strings` are exact in `Model/BlockSizes.lean`; the rest of the model uses
  the unbounded versions, which agree below 2 GiB (`C06_agree`, `C13_agree`). Loop counters and lengths of
  single texts of 2 GiB or more elsewhere (`trim`, `text_find_after`, …) are not covered.
* **Environment as parameters.** Digest function, `EVP_MAX_MD_SIZE`, thread id, formatted clock,
  user-supplied route handlers, filters and serialisers, file system, socket input (the bytes the
  peer sends, then end of file). Theorems quantify over them.
* **File system.** A finite or infinite tree of directories and regular files, without symbolic links;
  `canRead`/`canWrite` are arbitrary permission predicates. Path names are walked component by
  component (`.`, `..`, repeated and trailing slashes). `fopen` for reading also opens a readable directory,
  from which nothing can be read.
* **Ownership.** Where `free` matters, strings carry a flag (heap or literal, `HStr`), and
  `Model/ConfHeap.lean` has an explicit heap with addresses, so that freeing a literal or freeing
  twice is UB.
* **Concurrency.** `Model/Queue.lean` is a small-step semantics of the accepting thread and any number
  of workers on `ws_queue`: every C statement on shared data is one step, plus `pthread_mutex` and
  `pthread_cond` (spurious wake-ups allowed; a signal wakes one waiter if there is one; the handler
  of a connection is one step and does not touch the queue; `ws_cond` is taken as initialised: the code has no
  `pthread_cond_init` and relies on zeroed static storage, which is what glibc's initialiser is). `Model/Races.lean` has the interleavings
  of the unsynchronised code (`connection_add`/`connection_close`, `strtok`) and `Model/Reuse.lean` the life of descriptor
  numbers (any number that is not open may be given out by `accept`), both with sequential
  consistency. `Model/Appends.lean` has threads that write to one log: each stdio call on a shared stream, and each
  `write` to a file opened for appending, is one step; a stream of its own is written when 4096 bytes are full or
  it is closed. Elsewhere one request is handled at a time.
* `malloc`/`calloc`/`strdup` never fail, except in `Model/Alloc.lean`, where the three blocks whose size
  the client chooses (ws.c:247, 248, 295) may be refused (C113). A failed TLS handshake is an empty input. A `send`/`SSL_write`
  is recorded as handed over completely (the code ignores the result).

## 3. Trusted base

* The Lean 4.33 kernel. No `sorry`, no own axioms, no `native_decide`/`bv_decide`. Finite evaluations
  use `decide`, `decide +kernel` or `rfl`.
* The reading of the C code: there is no extraction tool; the model definitions were written against
  the cited lines.
* The libc/OpenSSL/POSIX semantics in `Base.lean`, `Libc.lean`, `Model/Fs.lean` and the primitives of
  `Model/Queue.lean`: `strtok`, `strstr`, `strncpy`, `atoi`, `fgets`, `getline`, the used subset of
  `printf`, `EVP_Digest*` (a function of the concatenated updates), `EVP_MAX_MD_SIZE = 64`, `getopt`'s
  result, `fopen`/`stat`/`mkdir`/`unlink`.
* The English statements in `properties.jsonl` against the Lean statements.

### 3.1 Axioms per theorem

Output of `tools/gen_axioms.py` (theorems of `MANIFEST.json`, prefix `Wayuu.` omitted):

<!-- axioms begin -->
| axioms | theorems |
|---|---|
| none | `C84_refuted` |
| Classical.choice, Quot.sound, propext | `C01_strip_unique`, `C01_trim`, `C02_absent`, `C02_found`, `C02_rebuild`, `C03_any`, `C03_split_once`, `C03_whole`, `C04_colon`, `C04_partial`, `C04_refuted`, `C06_agree`, `C06_exact`, `C06_partial`, `C06_refuted`, `C101_forged`, `C101_partial`, `C101_refuted`, `C101_upload`, `C102_partial`, `C102_unreachable`, `C103_evaded`, `C103_partial`, `C103_refuted`, `C103_slashless`, `C104_forged`, `C104_refuted`, `C104_request`, `C106_extra`, `C107_partial`, `C107_refuted`, `C108_last`, `C108_partial`, `C108_refuted`, `C108_stale`, `C109_address`, `C109_boundary`, `C109_length`, `C109_partial`, `C109_refuted`, `C111_beyond`, `C111_partial`, `C112_partial`, `C112_refuted`, `C112_unreadable`, `C114_encoded`, `C114_last`, `C114_partial`, `C114_refuted`, `C117_lost`, `C117_partial`, `C118_injects`, `C118_long`, `C118_partial`, `C119_exact`, `C119_partial`, `C119_refuted`, `C11_md5sum`, `C120_defined`, `C120_partial`, `C121_partial`, `C122_answer`, `C122_left`, `C122_partial`, `C123_flood`, `C123_partial`, `C123_refuted`, `C124_partial`, `C124_refuted`, `C124_responses`, `C124_undefined`, `C126_exact`, `C126_json`, `C126_partial`, `C126_refuted`, `C126_request`, `C126_stream`, `C127_fixed`, `C127_matters`, `C127_partial`, `C128_exact`, `C128_tail`, `C12_overflow`, `C12_partial`, `C12_refuted`, `C130_partial`, `C130_smuggled`, `C132_bare`, `C132_exact`, `C132_partial`, `C132_stale`, `C133_partial`, `C134_early`, `C134_partial`, `C134_url`, `C135_authorization`, `C135_exact`, `C135_partial`, `C135_refuted`, `C136_exact`, `C136_partial`, `C136_refuted`, `C137_guard`, `C137_partial`, `C137_refuted`, `C13_agree`, `C13_exact`, `C13_limit`, `C145_exact`, `C145_partial`, `C145_refuted`, `C145_total`, `C146_partial`, `C146_quiet`, `C146_refuted`, `C146_unique`, `C148_alike`, `C148_ending`, `C148_total`, `C14_ints`, `C151_request`, `C157_partial`, `C157_quiet`, `C157_refuted`, `C15_exact`, `C15_int_partial`, `C15_key_exact`, `C15_uint32_partial`, `C167_handlers`, `C167_index`, `C167_limits`, `C167_partial`, `C16_exact`, `C16_partial`, `C16_refuted`, `C17_crash_partial`, `C17_exact`, `C17_partial`, `C18_overflow`, `C18_partial`, `C18_refuted`, `C19_roundtrip`, `C20_exact`, `C20_partial`, `C20_total`, `C21_serializer`, `C21_values`, `C21_write_parse`, `C22_absent`, `C22_found`, `C23_no_bad_free`, `C25_dispatch`, `C25_reject`, `C26_filter`, `C28_partial`, `C29_partial`, `C30_helpers`, `C30_over`, `C30_status`, `C31_helpers`, `C31_json`, `C31_list`, `C32_file`, `C32_helpers`, `C32_json`, `C32_status`, `C32_stream`, `C33_response`, `C33_stream`, `C34_partial`, `C34_wrong`, `C35_never`, `C35_partial`, `C35_refuted`, `C36_exact`, `C36_partial`, `C37_exact`, `C37_long`, `C37_partial`, `C39_exact`, `C39_response`, `C40_get_line`, `C40_unique`, `C41_method`, `C41_short`, `C42_lookup`, `C42_stored`, `C43_anycookie`, `C43_authorization`, `C43_bounded`, `C43_cookie`, `C43_exact`, `C43_partial`, `C44_glued`, `C44_nobody`, `C44_partial`, `C45_general`, `C45_partial`, `C46_filter`, `C49_attained`, `C49_decision`, `C49_partial`, `C49_refuted`, `C50_partial`, `C50_refuted`, `C50_unbounded`, `C53_drained`, `C53_progress`, `C53_woken`, `C54_everything`, `C54_partial`, `C55_partial`, `C55_refuted`, `C55_rewritten`, `C55_stack`, `C58_file`, `C58_json`, `C58_request`, `C58_status`, `C58_stream`, `C60_createdir`, `C62_silent`, `C63_request`, `C64_api`, `C64_method`, `C64_static`, `C65_admission`, `C65_recorded`, `C69_defined`, `C69_partial`, `C70_partial`, `C70_refuted`, `C71_cookie`, `C71_partial`, `C71_refuted`, `C72_early`, `C72_exact`, `C72_iff`, `C72_partial`, `C72_quotes`, `C72_refuted`, `C72_short`, `C72_truncated`, `C74_decision`, `C74_fits`, `C74_unique`, `C76_partial`, `C77_helpers`, `C77_lines`, `C77_short`, `C78_lost`, `C78_overload`, `C78_partial`, `C78_refuted`, `C79_apart`, `C80_blocked`, `C80_partial`, `C80_refuted`, `C81_conf`, `C81_form`, `C81_headers`, `C81_limits`, `C81_route`, `C81_stream`, `C81_strings`, `C81_url`, `C82_partial`, `C82_refuted`, `C82_reserved`, `C83_clock`, `C83_distinct`, `C83_text`, `C84_exact`, `C84_partial`, `C84_text`, `C85_micros`, `C85_partial`, `C86_quiet`, `C87_partial`, `C87_preflight`, `C87_refuted`, `C87_status`, `C92_log`, `C92_missed`, `C92_partial`, `C92_refuted`, `C93_cut`, `C93_forged`, `C93_partial`, `C93_refuted`, `C94_long`, `C94_newline`, `C94_partial`, `C99_const`, `C99_everything`, `C99_partial`, `Changing.C162_exact`, `Changing.C162_gone`, `Changing.C162_partial`, `Changing.C162_refuted`, `Disk.C161_settings`, `Embed.C97_exposed`, `Embed.C97_home`, `Embed.C97_partial`, `Embed.C97_serves`, `Full.C153_pool`, `Full.C153_room`, `Full.C154_answer`, `Full.C154_full`, `Full.C154_progress`, `Full.C154_rest`, `Full.C154_start`, `Full.C154_undefined`, `Full.C155_filter`, `Full.C155_idle`, `Full.C155_log`, `Full.C156_answer`, `Full.C156_partial`, `Full.C156_refuted`, `Full.C156_room`, `Hook.C160_all`, `Hook.C160_calls`, `Hook.C160_defined`, `Hook.C160_http`, `Hook.C160_kept`, `Hook.C160_open`, `Listen.C95_parts`, `Listen.C95_range`, `LogRotate.C165_follows`, `LogRotate.C165_kept`, `LogRotate.C165_partial`, `LogRotate.C165_refuted`, `Mem.C105_denied`, `Mem.C105_growth`, `Mem.C105_partial`, `Mem.C73_grows`, `Mem.C73_partial`, `Overlap.C150_descriptors`, `Overlap.C150_overlap`, `Overlap.C150_start`, `Overlap.C150_undefined`, `Overlap.C151_overlap`, `Overlap.C152_bound`, `Overlap.C152_drained`, `Overlap.C152_partial`, `Overlap.C152_refuted`, `Overlap.C152_table`, `Peer.C100_limits`, `Peer.C100_partial`, `Peer.C100_refuted`, `Peer.C100_stack`, `Reuse.C88_drained`, `Reuse.C88_partial`, `Rotate.C163_rotated`, `Rotate.C163_settled`, `Rotate.C164_exact`, `Rotate.C164_partial`, `Scarce.C113_crash`, `Scarce.C113_partial`, `Shared.C129_clock`, `Shared.C129_log`, `Shared.C129_partial`, `Shared.C129_refuted`, `Shared.C129_table`, `Shared.C129_tokens`, `Shared.C131_end`, `Shared.C131_progress`, `Shared.C131_release`, `Shared.held_reached`, `Startup.C141_idle`, `Startup.C141_partial`, `Startup.C141_refuted`, `Startup.C96_down`, `Startup.C96_up`, `Steps.C125_partial`, `Steps.C125_refuted`, `Steps.C125_square`, `Steps.C125_witness`, `Tls.C144`, `Tls.C144_defined`, `Tls.C144_order`, `Tls.C144_own`, `Tls.C144_rest`, `Whole.C115_run`, `Whole.C138_allow`, `Whole.C138_partial`, `Whole.C139_partial`, `Whole.C140_crash`, `Whole.C140_defined`, `Whole.C140_partial`, `Whole.C140_refuted`, `Whole.C140_site`, `Whole.C142_defined`, `Whole.C142_once`, `Whole.C142_partial`, `Whole.C142_refuted`, `Whole.C143_call`, `Whole.C143_partial`, `Whole.C143_refuted`, `Whole.C143_room`, `Whole.C147_exact`, `Whole.C147_partial`, `Whole.C147_refuted`, `Whole.C149_alike`, `Whole.C149_served`, `Whole.C149_start`, `Whole.C151_server`, `leadsTo_unique` |
| Quot.sound, propext | `C05_any`, `C05_over`, `C05_split`, `C06_join`, `C06_join_ends`, `C06_join_nulls`, `C07_startswith`, `C07_startswithany`, `C08_find`, `C08_safe`, `C08_window`, `C09_chop`, `C101_param`, `C102_refuted`, `C102_witness`, `C10_isalnum`, `C110_dead`, `C110_partial`, `C110_refuted`, `C111_refuted`, `C115_nothing`, `C115_writes`, `C116_partial`, `C116_read`, `C116_refuted`, `C116_write`, `C118_refuted`, `C11_injective`, `C11_md5sum_empty`, `C120_debug`, `C122_refuted`, `C128_partial`, `C130_refuted`, `C132_refuted`, `C133_nested`, `C133_refuted`, `C134_refuted`, `C13_empty`, `C13_forged`, `C13_partial`, `C13_refuted`, `C157_defined`, `C158_partial`, `C158_quiet`, `C158_refuted`, `C158_unknown`, `C159_exact`, `C159_joined`, `C159_partial`, `C159_refuted`, `C15_bool_partial`, `C15_forged`, `C15_partial`, `C15_refuted`, `C15_refuted_escape`, `C167_refuted`, `C16_entities`, `C16_nulls`, `C16_valid`, `C17_none_partial`, `C18_elements_exist`, `C21_over`, `C24_register`, `C24_resolve`, `C25_const`, `C27_body`, `C27_partial`, `C28_anywhere`, `C28_refuted`, `C29_over`, `C29_refuted`, `C30_unsupported`, `C35_missing_partial`, `C36_over`, `C36_runs_partial`, `C36_uninit`, `C38_forged`, `C38_partial`, `C38_refuted`, `C38_uninit`, `C39_forged`, `C39_over`, `C39_partial`, `C39_refuted`, `C39_stored`, `C39_text`, `C43_refuted`, `C44_refuted`, `C44_short`, `C45_refuted`, `C47_partial`, `C47_refuted`, `C48_over`, `C48_rules`, `C48_unique`, `C51_closed`, `C51_helpers`, `C52_bounded`, `C52_exclusive`, `C52_fifo`, `C52_safe`, `C54_refuted`, `C56_freed`, `C56_partial`, `C56_path`, `C56_refuted`, `C56_steals`, `C57_level`, `C57_range`, `C59_find_over`, `C59_find_partial`, `C59_read`, `C59_read_over`, `C59_round_partial`, `C59_unterminated`, `C59_write_partial`, `C61_exit`, `C61_launch`, `C61_partial`, `C61_static`, `C62_partial`, `C62_refuted`, `C66_leak`, `C66_partial`, `C66_refuted`, `C67_refuted`, `C67_unused`, `C68_partial`, `C75_helpers`, `C75_partial`, `C75_refuted`, `C76_kept`, `C76_line`, `C76_refuted`, `C78_error`, `C85_refuted`, `C86_partial`, `C86_refuted`, `C87_count`, `C87_mime`, `C89_partial`, `C89_refuted`, `C89_tolerated`, `C89_unknown_partial`, `C99_refuted`, `Changing.C162_still`, `Disk.C161_form`, `Disk.C161_partial`, `Disk.C161_silent`, `Embed.C97_refuted`, `Listen.C95_blank`, `Listen.C95_exact`, `Listen.C95_name`, `Listen.C95_octal`, `Listen.C95_partial`, `Listen.C95_port`, `Listen.C95_refuted`, `Listen.C95_silent`, `Listen.C95_word`, `LogFile.C90_closed`, `LogFile.C90_fatal`, `LogFile.C90_partial`, `LogFile.C90_unopened`, `LogRotate.C166_exact`, `LogRotate.C166_partial`, `LogRotate.C166_refuted`, `Mem.C105_refuted`, `Mem.C73_query`, `Mem.C73_refuted`, `Net.C98_killed`, `Net.C98_partial`, `Net.C98_refuted`, `Overlap.C150_alone`, `Overlap.alone_eq`, `Reuse.C88_unbounded`, `Rotate.C164_refuted`, `RouterLife.C91_freed`, `RouterLife.C91_partial`, `RouterLife.C91_refuted`, `Scarce.C113_granted`, `Scarce.C113_refuted`, `Startup.C141_count`, `Startup.C96_hears`, `Whole.C138_refuted`, `Whole.C139_refuted`, `response_unambiguous` |
| propext | `C06_join_empty`, `C103_slashless_witness`, `C103_witness`, `C104_headers`, `C104_partial`, `C104_witness`, `C106_witness`, `C111_witness`, `C116_folder`, `C117_refuted`, `C120_refuted`, `C121_handshake`, `C121_refuted`, `C127_refuted`, `C128_refuted`, `C128_witness`, `C14_empty`, `C158_usage`, `C17_refuted`, `C17_refuted_crash`, `C20_refuted`, `C20_unreadable_partial`, `C27_refuted`, `C28_witness`, `C33_nul`, `C34_mime_partial`, `C34_refuted`, `C36_refuted`, `C36_refuted_empty`, `C37_refuted`, `C50_lost`, `C54_leak`, `C57_set`, `C58_line_partial`, `C58_refuted`, `C58_witness`, `C59_negative`, `C59_refuted`, `C61_refuted`, `C68_refuted`, `C69_refuted`, `C86_start`, `C94_refuted`, `Disk.C161_refuted`, `LogFile.C90_refuted`, `Net.C98_short`, `Reuse.C88_refuted` |
<!-- axioms end -->

### 3.2 What is modelled

| file | modelled | not modelled |
|------|----------|--------------|
| `string_utils.c` | every function (`free_str_list_t`: in `Model/Memory.lean`) | |
| `json_utils.c` | every function | |
| `file_utils.c` | every function; on a disk that takes a part only: `write_file` and its callers in ws.c, `write_conf` (`Model/Disk.lean`) | partial writes of other functions |
| `conf_parser.c` | every function; the file while it is saved (`Model/Saving.lean`: any first part of the text may be on the disk) | what `perror` prints (the texts are put together) |
| `http_utils.c` | every function (`http_log_headers`: `Model/LogHeaders.lean`; `return_file` and `direct_file` on a tree that others change: `Model/Changing.lean`) | |
| `router.c` | every function (`router_init`, `free_routing_table`: `Model/RouterLife.lean`); messages: `Model/Messages.lean` | |
| `log.c` | `format_timestamp`, `format_ts_common_log` (the clock is a parameter; `gmtime`, `strftime` of the C locale), `__logger`, `log_level_is_enabled`, `log_set_level`, `log_set_file`, `log_close_file` (`Model/LogFile.lean`; with renamings and descriptors: `Model/LogRotate.lean`) | – |
| `wayuu_log.c` | `log_access` (the file it opens for each line, its renaming and a full disk: `Model/Rotate.lean`), `epoch_millis`, `response_time` (`double` as fractions of 53 bits; the clock is a parameter) | |
| `ws.c` | request handling, connection table, limits, address filter, multipart parser (its work: `Model/Steps.lean`), queue, workers, accept loop and start-up (`Model/Listen.lean` with `inet_addr`, `Model/Startup.lean`; the decisions of `socket`, `setsockopt`, `bind`, `listen`, `pthread_create` and of OpenSSL are parameters) | the TLS protocol (the life cycle of descriptors and TLS objects is in `Model/Tls.lean`), signals other than SIGPIPE (`Model/Net.lean`); `getpeername` in `Model/Peer.lean`; messages in the server log while a request is handled: `Model/Messages.lean` (numbers printed with `%d` left out) |
| `main.c` | `getopt` on the words of the command line (`Model/Getopt.lean`), option loop, defaults, output (`Model/Terminal.lean`) | – |
| – | the server with its clients: filter, queue, workers, reused descriptors and `accept_request` in one transition system (`Model/Whole.lean`) | a request is handled in one step there (overlaps: `Model/Overlap.lean`, `Model/Races.lean`, `Model/Reuse.lean`, `Model/Shared.lean`) |
| ws.c:463-656 | requests in progress at the same time: `accept_request` in six steps, which those of other requests may come between (`Model/Overlap.lean`) | what happens within a step is not taken apart; queue and number of threads are left out |
| ws.c:59-61, 694-705, 727-728 | `socket_handler`: the function passed to `ws_launch` in place of `accept_request` (`Model/Hook.lean`) | what the function does is open; it may close descriptors it was given, at any time |
| ws.c:694-705, 773-808 | the two together: accept loop, filter, queue, and workers each of which goes through the steps of its request while the other threads run (`Model/Full.lean`) | what happens within a step of a request is not taken apart |
| – | descriptors of the process and its end when `accept` fails (`Model/Server.lean`) | descriptors of files and of the listening socket (part of the limit) |
| – | memory blocks a request obtains and frees (`Model/Memory.lean`, one ledger for the whole of `accept_request`) | allocation failure other than of blocks whose size the client chooses (`Model/Alloc.lean`), the Makefile |
| – | accesses of the threads to memory they share (`Model/Shared.lean`: which locations, in what order, under which locks; values are left out, what depends on them is a parameter; races after C11 in `Spec/HappensBefore.lean`) | what values a race leads to, locks inside libc and OpenSSL |

## 4. Findings (where the code does not do what a user relies on)

Each is proved as a `…_refuted` theorem (or an exact characterisation) from a concrete witness:

* memory errors: `md5sum` writes 129 bytes into 36 (C12); header names ≥ 64, values ≥ 256, sessions and
  boundaries that are too long (C37, C69); request path of 250 bytes for a POST (C29); appending a
  parameter to a body (C27); malformed multipart bodies (C45, C72); more than 20 configuration elements
  (C18); `write_file` needs a terminator (C59); empty path (C36); a line of `=` (C17); request lines
  shorter than 2 bytes (C41); `return_response` with empty texts (C38); NULL JSON values (C15);
  freeing the result of `join` (C68); joining texts of 2 GiB or more (C06, C13, C16);
* wrong answers: ignored delimiter (C04), no JSON escaping (C13, C15, C39), values cut at a second `=`
  (C17), parameter routes match anywhere (C28), CSV and other content types (C34), static responses
  with two status lines (C35), Authorization and Cookie sessions (C43), `Content-Length` without a
  space (C44), names with blanks in forms (C45), quoted boundaries (C70), file responses split by a session cookie (C71), addresses matched as substrings (C47), limits admit
  one more (C49), `..` leaves the static root (C54), final `/` tested on an uninitialised array (C55),
  no answer without a site index (C62), log lines split by a newline (C58), `-r` and the default
  address (C61), `max_seconds` never used (C67), full queue leaks the socket (C66), every request leaks memory (C73), answers depend on earlier stack contents (C75), overload or an error of
  `accept` ends the process (C78), as many silent clients as workers stop the service (C80),
  thirty bytes reserve 2 GB (C82);
* the server log has a two-digit year (C84), the response time wraps round if the clock is set back (C85), and time stamps of
  several threads can be mixed up since `gmtime` is not re-entrant (C86);
* plain status answers lack the cross-origin field and `OPTIONS` is refused (C87);
* the descriptor is closed before its entry in the table of connections is removed, so that the entry of the next
  connection can be removed instead (C88);
* a command line that lacks a value or has stray words starts the server all the same (C89);
* logging after `log_close_file` uses the closed stream (C90);
* requests after `free_routing_table` read freed matchers (C91);
* headers sent in small letters are not found (C92);
* the end of a long header line is read as a header of its own: a session can be forged through the referer (C93);
* a request line that ends with LF alone loses its last byte in the log (C94);
* `-p 70000` listens on port 4464, `-b 010.0.0.7` on 8.0.0.7 (C95);
* a program that embeds the server and does not know of `WAYUU_STATIC_ROOT` serves every file of the machine (C97);
* a client that resets its connection while queued is logged, and counted, under another address (C100);
* form values are not escaped: `hi&role=admin` in one field is two fields, and a field named `tmpfile` passes for an upload (C101);
* URLs are not percent-decoded: a file `my file` can not be fetched, nor (by its link) a file whose name begins with `api` (C102);
* `GET /./docs/x` is not subject to a limit rule for `/docs` (C103);
* `GET /x" 200 5 "-" "-"` makes the access log say 200 whatever the response (C104);
* each connection, also one the deny file turns away, costs a block of memory for ever (C105);
* a second request on a connection is dropped without notice: no answer says `Connection: close` (C107);
* `Cookie: a=b` after a longer line makes a session of the end of that line (C108); `X-Real-IP:192.0.2.7` is read as `92.0.2.7` (C109);
* a limits line `/api ,5,5` limits nothing (C110), `/docs,5,5` limits `/docs-old` too (C111);
* a page the server may not read is answered with `200 OK` and nothing (C112); `GET /../../../etc/passwd` works for every file of the machine (C54_everything);
* a request announcing more body than there is memory for writes to address 0, before any body is sent (C113_crash); of two Content-Lengths the last counts, `3abc` is 3, `4294967299` is 3, and Transfer-Encoding is ignored (C114);
* a request that is refused (400, 429) or sent with a body outside /api is closed with input unread, so that the answer can be lost to
  a reset (C122);
* a request of 99 bytes can leave 499999999 warnings in the server log (C123);
* a Referer or User-Agent of 256 bytes or more is undefined for every request (C124);
* a multipart request of a megabyte can keep a worker busy for 10^14 steps (C125);
* of a file of n bytes n mod 2^32 are delivered, with status 200; from 2^31 on most sizes are undefined behaviour (C126);
* GET:/user/{id} hides GET:/user/list if it is registered before it (C127), and GET:/user/{id}/posts is a parameter called `id}/post` (C128);
* workers race (C11) on `live_connections`, on the buffer of `gmtime` and on the state of `strtok` (C129);
* the method word can carry a route: `DELETE:/user/5 /api HTTP/1.1` runs `DELETE:/user/{id}` under the limits of /api (C130);
* `req->content_type` keeps the line end when the media type has no parameters (C132);
* a parameter route takes every path below its prefix, and its handler gets a value with slashes in it (C133);
* a request that is cut off inside its URL is carried out for the shorter URL (C134);
* the credential of an `Authorization` line comes back as a cookie with every page (C135);
* `http_log_headers` reads past the arrays of long headers (C136), and the result of `http_get_header` cannot be freed if the header
  is missing (C137);
* a deny file that the server may not read denies nobody (C138);
* a server that was refused its threads says that it is running, accepts connections and serves nobody (C141);
* with `-d` the session token of every API request is in the server log (C120_debug); at the default level an upload with a blank
  `X-Real-IP` line splits a log entry (C121);
* a settings object whose text has 1024 bytes or more overflows the block of serializable_to_string (C119_exact);
* a saved value that contains a newline is read back as further settings of the user's choice (C118_injects); a line of more than 510 bytes hides all settings after it (C118_long);
* a stop of the server while settings are saved loses any number of them, or the end of a value, and reading reports success (C117); a path of 88 bytes that cannot be written, or of 99 that cannot be read, overflows the array for the message, and a folder is read as settings without error (C116);
* the link `/api/aDELETE:/user/5` runs the handler of `DELETE:/user/{id}` (C99);
* a program that embeds the server is ended by SIGPIPE as soon as a client goes away in the middle of an answer (C98);
* races: connection table (C50), `strtok` (C56: one request can get the query of another, or read the freed copy of another's URL), lines of the server log (C76).

## 5. How the properties are stated

P = proved as stated; R = the code violates the statement as a user would rely on it: the violation is
proved (`…_refuted`, with a concrete witness) together with the strongest true part found
(`…_partial`, and exact characterisations where possible).

| id | | modelled | proof |
|----|-|----------|-------|
| C01 | P | `trim` on a block (memmove, terminator stores) | loop lemmas for the two scans, block algebra; result compared with `Spec.strip`; frame: bytes after the old terminator unchanged |
| C02 | P | `rtrim`, `ltrim` | induction on the scan |
| C03 | P | `split_once` with 1024-byte blocks | from C01, C02; `strncpy` termination lemma |
| C04 | R | same | `delim` is ignored; partial: equal for ":" |
| C05 | P | `split` via `strtok` model | induction on the token loop; spec is a relation (maximal runs) |
| C06 | R | `join` with NULLs and exact allocation | the size of the block is an `int`: false from 2 GiB on (`C06_exact`), true below |
| C07 | P | `startswith`, `startswithany` | induction on `strncasecmp` |
| C08 | P | `text_find_after` on a block | induction on both loops; safety from NUL |
| C09, C10 | P | `chop_string`, `string_isalnum` | induction |
| C11 | P | `md5sum`, digest as parameter | induction over chunks |
| C12 | R | `save_tmp_file` | overflow for every upload; partial: intact storage if the digest macro were ≤ 17 |
| C13 | R | `json_array_of_strings` | no escaping; the array comes out if and only if no string needs escaping (`C13_exact`), and one string can stand for any array (`C13_forged`); from 2 GiB on it fails (`C13_limit`); spec: JSON decoder |
| C14 | P | `json_array_of_ints` | decimal round trip, length bound 11 |
| C15 | R | `json_key_value*` | NULL and escapes; right if and only if nothing needs escaping (`C15_exact`, `C15_key_exact`); a value can add members (`C15_forged`) |
| C16 | R | `json_array_of_entities` | serialiser as parameter; false from 2 GiB on (`C16_exact`), true below |
| C17 | R | `conf_parse_line` | `=`, `=v`, `a=b=c`; partial for clean key and value; exact for every line (`C17_exact`) |
| C18 | R | `conf_parse_multi` | above 20 elements; partial up to 20 |
| C19 | P | round trip | |
| C20 | R | `parse` over file contents via `fgets` | malformed lines; exact for every file (`C20_exact`, `C20_total`) |
| C21 | P | `write_conf` + `parse` | under the size limits |
| C22 | P | `get_key_flag` | |
| C23 | P | heap with addresses, all sequences of API calls | invariant: items own disjoint live blocks |
| C24 | P | `router_resolve_route` | |
| C25, C26 | P | `router_add_route`, `router_handle_request` with event trace | |
| C27 | R | parameter delivery | `strcat` past the body's block; partial: exact behaviour |
| C28 | R | matching with `strstr` | partial: selected ⇒ infix, and prefix ⇒ selected; exact parameter otherwise |
| C29 | R | `matcher[255]`, `router_extract_param` | exact boundary |
| C30, C31 | P | response builders | independent HTTP response parser applied to the bytes sent |
| C32 | P | accumulators | |
| C33 | P | `send_stream` via `fgets` | |
| C34 | R | content types | partial table, exact wrong cases |
| C35 | R | `direct_file` | status line sent twice, for every file; partial: exact bytes |
| C36 | R | `get_path_and_query_string` | urls made only of '?', repeated '?', more than 50 pieces; exact condition for path and query (`C36_exact`, `C36_over`); partial |
| C37 | R | `http_get_header` on unterminated fields | values ≥ 256, names ≥ 64; exact outcome in all cases |
| C38 | R | `return_response` | indeterminate pointers; partial |
| C39 | R | error serialiser | escapes; right if and only if nothing needs escaping (`C39_exact`), a message can add members (`C39_forged`); storage and safety for all texts |
| C40 | P | `get_line` on block and stream | |
| C41 | P | `accept_request` prefix | |
| C42 | P | header loop on the 1024-byte block | |
| C43, C44 | R | session, body | exact behaviour |
| C45 | R | `multipart_parse`, `part_parse` on the reused scratch block | loop invariant relating the scratch block to the part; general theorem for every form without the two defects |
| C46 | P | `allowed_address`, `find_in_file` | |
| C47 | R | same | substring match |
| C48 | P | `load_limits` | |
| C49 | R | connection table as a state machine | limit + 1; invariant `≤ max+1` over all histories, attained |
| C50 | R | interleavings of `connection_add` | for every number of workers; partial: without overlap |
| C51 | P | `accept_request` exit paths | |
| C52, C53 | P | small-step model of queue, mutex, condition variable | invariants over all schedules |
| C54 | R | path walk in a file tree | `..` (`C54_everything`: every readable file of the machine can be fetched); partial: paths without it |
| C55 | R | `handle_static_routes` with stack garbage | partial, exact |
| C56 | R | interleaved `strtok`, with the `free` of the copy | partial: a request not interrupted; under every defined execution the path is the own one; reads of freed memory and stolen queries for all requests |
| C57 | P | `__logger` | |
| C58 | R | `log_access`, whole requests | newline through an empty `X-Real-IP`; partial: all other requests, by an invariant over everything a request runs |
| C59 | R | `read_file`, `write_file`, `find_in_file` | `strlen` of data without terminator; partial |
| C60 | P | `check_createdir` | |
| C61 | R | option loop of `main` | default address, `-r`; partial |
| C62 | R | `accept_request` | missing index (`C62_silent`: then nothing is sent); partial |
| C63, C64, C65 | P | `accept_request` end to end | |
| C66 | R | accept loop | full queue drops without close; partial |
| C67 | R | rule evaluation | result independent of `max_seconds` |
| C68 | R | `join` | a literal is returned when there is nothing to join; exact condition |
| C69 | R | header section | exact condition for staying inside the arrays |
| C70 | R | `accept_request` and `multipart_parse` end to end | quoted boundary gives an empty form; partial: plain boundaries |
| C71 | R | static file responses | line end of the cookie splits the head; partial: no cookie, exact for one cookie |
| C72 | R | `multipart_parse` on arbitrary bodies | part without content, short part behind a field, name behind the empty line; partial: fields mixed with parts that name no field; exact: every body and delimiter (`Spec/PartsFit.lean`) |
| C73 | R | ledger of block identities through `accept_request` | exact number of blocks left by every course of a request |
| C74 | P | `inet_ntoa` into the 24-byte array, limits | decimal text is injective, dots separate |
| C75 | R | worker loop | frame lemma for everything a request runs; stack contents are the only channel |
| C76 | R | threads that call `__logger` (`Model/Appends.lean`) | three `fprintf` per message; partial: invariant "whole lines, then at most one in progress" |
| C77 | P | threads that call `log_access` | bound of 2000 bytes on every line any request can cause (invariant over everything a request runs), so one `write` each; then the invariant of C76 |
| C78 | R | accept loop with a limit on descriptors (`Model/Server.lean`) | sockets turned away stay open until `accept` fails and the process exits, for every limit; partial: invariant "open = queue + workers + turned away" |
| C79 | P | same | invariant over all interleavings: the open descriptors are a permutation of the places, without repetition |
| C80 | R | same, handlers of silent clients never return | one silent client more than workers, for every pool size; partial: fewer silent clients than workers |
| C81 | P | every loop that ends when the data says so | fuel-free loop semantics (`Spec/Loops.lean`), decreasing measure per loop |
| C82 | R | header section and `handle_api_request` | announced length is reserved at once; partial: clients that send what they announce |
| C83 | P | `format_ts_common_log` | `gmtime` shown equal to a calendar that counts single seconds; injectivity of the text |
| C84 | R | `format_timestamp` | two-digit year; partial: within a century |
| C85 | R | `epoch_millis`, `response_time`, `%.3f` | unsigned difference; partial: exact through `double`, with rounding to even modelled |
| C86 | R | `gmtime` in several threads | shared static result, torn reads; partial: same second, or no overlap |
| C87 | R | all response helpers, `OPTIONS` requests | no cross-origin field without JSON, `OPTIONS` refused; partial: JSON, streams, media types |
| C88 | R | all runs of accept, `connection_add`, `close`, `connection_del`, with re-use of numbers | entry of a new connection removed by the late `connection_del`, without bound; partial: no re-use while a removal is pending; always: idle server, empty table |
| C89 | R | words of the command line through `getopt` and the option loop | `wayuu -p` starts; partial: lines following the usage, unknown options |
| C90 | R | all sequences of `log_set_file`, `log_set_level`, messages, `log_close_file` | use of the closed stream; partial: no `log_close_file`; fatal messages, files that cannot be opened |
| C91 | R | all sequences of `router_init`, `router_add_route`, `free_routing_table`, then a request | freed matchers are read; partial: freeing only before `router_init` |
| C92 | R | all header sections, all names | names are compared with `strcmp`; partial: the client's spelling is the program's |
| C93 | R | all header sections, lines of any length | lines are cut at 1023 bytes and the rest is read as a line; partial: shorter lines |
| C94 | R | all request lines | two bytes are cut off any line; partial: CR LF, at most 1023 bytes |
| C95 | R | all options, texts, answers of `bind` | port modulo 65536, `inet_addr` notations; partial: dotted decimal, 1..65535; `C95_exact`: every text of an address |
| C96 | P | all options, file trees, answers of OS and OpenSSL | start-up step by step (`Model/Startup.lean`); C96_hears also for `ws_launch` with settings and a log level of one's own |
| C97 | R | all assignments of the globals, requests, pairs of file trees | embedded: static root is empty; partial: programs that set it |
| C98 | R | all sequences of requests and moments | SIGPIPE ignored by main.c only; partial: standalone, blocking sockets |
| C99 | R | all requests, tables, bodies | end-to-end form of C28: a link can run every handler that has a parameter; partial: paths without ':', handlers without parameter |
| C100 | R | all requests, clients, stacks | getpeername unchecked: gone clients get another one's address; partial: connected clients |
| C101 | R | all forms, delimiters | form strings are not escaped: one value forges further fields, an upload or a parameter; partial: without '&' (and '=' in names) |
| C102 | R | all trees, names | URLs are not decoded: files with a blank or '?' in the name are out of reach of every request; partial: unreserved names not beginning with "api" |
| C103 | R | all rules, tables, spellings | `/./NAME` escapes every rule except one for `/`, `NAME` without its slash escapes that as well; partial: usual spelling, any query |
| C104 | R | all requests, responses | a request line with quotes makes the log say any status and length; partial: without quotes (C104_request: whole connections); request, status, length right with quotes in the headers |
| C105 | R | all sequences of connections | the accept loop never releases the block with the address; partial: exact count after any sequence, growth, cost of denied clients |
| C106 | P | all requests, continuations | equality of two runs: every function of the path commutes with adding input |
| C107 | R | all pairs of requests | no answer says Connection: close; partial: the second request has no effect, the connection is closed |
| C108 | R | all sections, permutations | short Cookie line: session from stale bytes; partial: the one line that decides is found wherever it is |
| C109 | R | all sections | fixed offsets after the colon; partial: step by step the same but for the buffer |
| C110 | R | all files of documented lines | blank before the first comma; such a rule is dead: URLs have no white space (two servers compared); partial: C48 with `atoi` of padded digits |
| C111 | R | all rule sets, requests, tables | prefixes, not path components; partial: two servers compared |
| C112 | R | all trees and permissions, page requests | unreadable file: 200 and no content; partial: readable files; nothing sent counts as no 200 |
| C113 | R | refused blocks for bodies, API requests | calloc unchecked: announced length without memory writes to address 0 (C113_crash); partial: granted |
| C114 | R | API requests, all header sections | last length, leading digits, modulo 2^32; Transfer-Encoding ignored; partial: clear lengths give exactly the body |
| C115 | P | all requests, trees, user code | only the folder for uploads and files named after thread and digest; nothing if no user code runs and digests have the size of the library |
| C116 | R | all trees and paths | message in 120 bytes: exact lengths at which reading and writing overflow; folders are read as empty files |
| C117 | R | all clean items, all moments | file emptied and written in place; what may be read after a stop, exactly; losses unnoticed |
| C118 | R | all values and items | newline in a value adds a setting; long lines hide the ones after; partial: keys exact otherwise, = in values |
| C119 | R | all settings objects | block of 1024 bytes; exact condition |
| C120 | R | all pairs of requests that differ in the token lines, messages of a request (`Model/Messages.lean`) | the token is logged with `-d`; partial: default level (non-interference) |
| C121 | R | messages of all requests | blank `X-Real-IP`, failed handshake; partial: default level, all other requests |
| C122 | R | all requests within the limits, all server states | unread bytes when the socket is closed, exactly; the effect of a reset is the definition `Arrives` |
| C123 | R | messages of all requests | missing bytes of a body are made up and parsed; partial: one message for three announced bytes, or two |
| C124 | R | lengths of header values | first Referer or User-Agent of 256 bytes; partial: all other headers of any length |
| C125 | R | all requests, steps counted by `Model/Steps.lean` | square of the length, announced bytes that are not sent; partial: quadratic bound, linear without multipart |
| C126 | R | all requests for files, all sizes | sizes modulo 2^32, undefined from 2^31 on; partial: whole below 2^31 - 1200 bytes |
| C127 | R | all permutations of all lists of routes | first match wins; partial: requests with one matching template |
| C128 | R | all templates with a '{' | text after the parameter becomes part of its name; partial: PREFIX{name} |
| C129 | R | all interleavings, courses of requests, levels and set-ups | races on live_connections, gmtime and strtok; partial: on nothing else (queue, limits, settings, lists, level, routes; LOG_FILE only without INFO and log file) |
| C130 | R | all method words, URLs, routes and states | the method word can carry a parameter route and its value (C130_smuggled); partial: words without colon not ending in a method, paths without colon |
| C131 | P | all interleavings, courses of requests, levels and set-ups | the mutex is held for at most 13 steps, nobody waits while holding it, no dead end |
| C132 | R | all requests, header sections and user code | `Content-Type: application/json` gives `application/json\r\n`; holds for `Content-Type: M;...`; C132_exact: what is found otherwise |
| C133 | R | all tables, requests and user code | `GET:/user/{id}` takes `/user/5/keys` with `id=5/keys`; holds for paths no deeper than the prefixes |
| C134 | R | all inputs, routes and user code | `DELETE /api/user/1` of `/api/user/12` removes user 1; holds until `/api` has come; C134_early: fewer than two bytes: write out of bounds |
| C135 | R | all header sections, pages, file systems | any other cookie is handed out as session; Authorization is turned into a cookie; holds without those two lines; C135_exact: what is handed out for every section |
| C136 | R | all requests, header sections, levels | long names or values are read past their arrays; only 20 are shown; holds for 20 headers that fit; C136_exact: all sections |
| C137 | R | all requests, header sections, names | a missing header gives a string constant; may be freed exactly if the header is there |
| C138 | R | runs of the whole server (`Model/Whole.lean`) | an unreadable deny file counts as empty; holds for readable files under 8192 bytes; C138_allow: the allow file fails closed |
| C139 | R | runs of the whole server | a full queue; at most once and with its own request always; all if nobody found the queue full |
| C140 | R | runs of the whole server | a full queue, crashes by others (C140_crash); holds for all who are served, and all are if nobody found the queue full; a page left alone need only be there at the start (C140_site) |
| C141 | R | start-up followed by all runs of the whole server | `pthread_create` is not checked: without threads nobody is served (C141_idle); holds with at least one thread |
| C142 | R | all clients, schedules and runs of the whole server | a full queue loses calls; otherwise exactly one handler run per admitted call (C142_once) |
| C143 | R | all endless fair executions of the whole server (`Spec/Fair.lean`) | a full queue leaves clients waiting; otherwise, or if there are not more descriptors than places, every admitted client is served (C143_room) |
| C144 | P | all interleavings, all reuse of descriptor numbers and TLS object addresses, with and without TLS | life cycle of descriptors and TLS objects (`Model/Tls.lean`) |
| C145 | R | whole requests: exact condition for defined behaviour (`Spec/Harmless.lean`, all byte sequences: `Spec/Announced.lean`) | a client that sends nothing |
| C146 | R | messages of `connection_add` for connections turned away (`Spec/Reason.lean`) | default level: nothing; with -d: exactly the reason |
| C147 | R | whole server (`Model/Whole.lean`), all clients and schedules; `Spec/Announced.lean` for the inputs | exact condition for every step |
| C148 | P | whole connection: request line, headers, form, routes, pages, answers; `Spec/Ending.lean` | all bytes, for sound setups |
| C149 | P | whole server (`Model/Whole.lean`), all clients and schedules; `Spec/Ending.lean` for the outcome | requests one after another |
| C150 | P | requests in progress at the same time (`Model/Overlap.lean`), all orders of their steps | whole steps take turns (C50, C56, C86, C88, C129 for less) |
| C151 | P | the access log, for all inputs, all runs of the server and all orders of the steps of overlapping requests | as C148 to C150 |
| C152 | R | the table of connections and the limits while requests overlap | true if descriptors are not handed out again too soon; bound and emptiness in all runs |
| C153 | P | the whole server with its threads (`Model/Full.lean`), all orders of their steps: order, pool and table | steps as in C52/C53 and C150 |
| C154 | P | the whole server with its threads, all orders of their steps: answers, service, progress, undefined behaviour | as C153 |
| C155 | P | the whole server with its threads, all orders of their steps: filter, access log, table and descriptors | as C153; address lists under 8192 bytes |
| C156 | R | the whole server with its threads, followed for ever under every fair schedule | as C153; the process does not end; reading a request ends |
| C157 | R | all routing tables and requests, messages of the router | only with `-d`; nothing at the default level |
| C158 | R | all command lines, what is shown on the terminal | for words before that follow the usage; `-p -v` starts the server |
| C159 | R | all lists of elements and texts, join and split | without empty elements; the exact condition both ways |
| C160 | P | all handlers, clients and orders of steps, accept loop, queue and workers with `socket_handler` (`Model/Hook.lean`) | steps as in C52/C53; the program closes only descriptors it was given |
| C161 | R | all trees, contents, bodies, settings and numbers of bytes the disk takes of each file (`Model/Disk.lean`) | the disk takes the first bytes; `fopen` itself as in `Model/Fs.lean` |
| C162 | R | all requests for files, trees at `stat` and at `fopen`, and changes of the opened file before `ftell` and before `fread` (`Model/Changing.lean`) | each call sees one state of the tree; one `fread` sees one state of the file; names that become folders after `stat` excluded |
| C163 | P | all lines of requests, threads, schedules and moments of renaming (`Model/Rotate.lean`) | `fopen` succeeds and the disk takes all; one `write` is one step; user code logs with the helpers (as in C77) |
| C164 | R | the same with any number of bytes taken of each line, and failures of `fopen` (`Model/Rotate.lean`) | the disk takes the first bytes of a `write` |
| C165 | R | all programs, messages and names, files behind their names (`Model/LogRotate.lean`) | files can be opened as long as descriptors are left, and the disk takes all |
| C166 | R | all sequences of calls and renamings, all limits of descriptors (`Model/LogRotate.lean`) | the rest of the process uses a constant number of descriptors, and opening fails for no other reason |
| C167 | R | all requests with http://HOST/PATH (`Props/AbsoluteForm.lean`) | no file of the site has such a path; the stack holds a non-empty string (as in C55) |

## 6. Limits of the partial theorems

The `note` of each `partial` entry in `MANIFEST.json` says what is missing. In every case the full
statement is kept next to the partial one as a `def Cxx_statement : Prop` together with its
refutation, so nothing stronger of the same form can be proved of the code as it is.

## 7. Testing the theorems

`seeded/LOG.jsonl` has one line per wrong program: the definition edited, the edit, the claim it breaks,
the manifest theorems that no longer hold (a theorem counts as failed if its own proof, or a lemma it
uses, no longer checks), and the theorems tightened in response. The mutants were built in a scratch
copy; only the modules needed by the claims under test were rebuilt. A lemma may also fail because its proof
follows the shape of the definition; the claim named in each line was compared with the edit by hand for the
edits numbered S, and derived from the failing lemma for those numbered A and B. Attempts whose edit did not
compile say so and count for nothing.
