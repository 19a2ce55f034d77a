# Design

Subject: `TheLastCylon/ecosystem` (Python package `ekosis`, plus `ekosis_prometheus`,
`ekosis_otlp_traces` and the C++ `ekosis_log_shipper`), read as text from `/repo`.
Nothing in `/repo` was built or run.

## Layout

`lean/Verif/<Area>/Model.lean` is the shallow model of the code: one definition per function,
each with a comment citing file and lines and naming every simplification.
`lean/Verif/<Area>/Spec.lean` is a small specification that does not mention the model.
`lean/Verif/<Area>/Lemmas*.lean` are helper lemmas.
`lean/Verif/<Area>/Props.lean` has the property theorems (`Cnn_...`), each followed by a
non-vacuity example.
`MANIFEST.json` maps property ids to theorem names.

## Trusted base

* Lean 4.33.0's kernel and the definitions of Lean core / Mathlib that are imported.
* Axioms: each theorem depends on a subset of `propext`, `Classical.choice`, `Quot.sound`
  (checked with `#print axioms`; see the table at the end). No axioms of our own, no `sorry`,
  no `native_decide`, no `bv_decide`.
* That the models mirror the cited code. The models are hand-written from the text of the code.
* Library behaviour, as stated per area below (SQLite/SQLAlchemy, asyncio, pydantic, json,
  logging, uuid, statistics). Where a library contract is used it is either modelled
  concretely (e.g. `int(s, 16)`, `list.pop`, `dict.pop`, `ORDER BY`, `LIMIT`, `UNIQUE`) or is an
  explicit hypothesis of the theorem (e.g. "decoding an encoded queue entry gives it back").

## Conventions

* Python exceptions are values (`Except PyErr`), never totalised away: a lookup that would
  raise `KeyError` returns that error in the model, and theorems show it does not occur, or
  exhibit it.
* Python's cooperative concurrency is modelled as atomic steps between suspension points.
  The scheduler is adversarial (any ready task may run next) for theorems that claim
  something always holds; refutations use schedules an actual asyncio loop can produce
  (first-in first-out ready queue), so they are real.
* A property the code does not have is stated in full in `properties.jsonl`, refuted in Lean by a
  concrete execution (`..._refuted`), and proved under the strongest hypotheses found
  (`..._partial`). Each such case is listed under "Disagreements".

## Mutation log

`seeded/LOG.jsonl` has one line per wrong program tried. `first_failing_declarations` are the declarations at which the build reported an
error. `theorems_failed` are the property theorems that depend on one of these; that a theorem is listed means that its proof no longer
goes through, not that its statement was shown to be false. An edit on which the build stops without reporting an error in a declaration (for
instance for lack of memory) is `inconclusive`, not a failure of any theorem.

## Plan per property

| id | model | proof |
|----|-------|-------|
| C01-C05, C09 | `Queue`: pages (list + dict), page aliasing, SQLite table with ids, all public operations | refinement to a plain list of (key, value), induction over operation lists |
| C06, C07 | `Queue`: shut-down, initial load | exact description of the content after restart; multiset equality; order refuted beyond page_size+1 items, proved up to that |
| C08 | `Queue`: list of durable states passed by each operation | invariant: all but at most 2 x page_size items are in the table at every commit |
| C10 | `Queue` | prefix proved; completeness refuted, proved when all items are in the front page |
| C11, C12 | `Queue` | proved for page size >= 1 / not aliased; refuted for page size 0 / aliased |
| C13-C15 | `Pending`: error and pending queue pair | by the queue refinement; refutations for key collisions and empty payloads |
| C16-C23 | `Handler`: buffered endpoint as a transition system over the queue model with explicit tasks | invariants by induction over schedules; refutations for handler exception, lost wake-up, reprocess-while-paused and busy status |
| C19, C20, C22, C24-C26 | `Sender`: same for the buffered sender | same |
| C27-C30 | `Lru`: heap of nodes with next/previous references, dict, head, tail | heap invariants; refinement to a recency list under stated conditions; refutations |
| C31-C33 | `Span`: `SpanId`, `SpanKey`, Python `int(s,16)` and `uuid.UUID(s)` for ASCII text | round-trip proofs on digits |
| C34-C36, C39-C41 | `Server`: `_route_request`, router, middleware manager, handlers | case analysis, induction over middleware lists |
| C37, C38, C61 | `Stream`: `readline` over chunks, handling loop, datagram server | invariant over arrival/processing schedules; determinism of quiescent states |
| C42-C45 | `Client`: response mapping, retry loops, connection with in-flight replies | induction over outcome lists / schedules |
| C46 | `Errors`: error state map, clearing endpoint | refinement to counters by induction over histories |
| C47-C50 | `Stats`: nested store, keeper with gathering, `statistics.quantiles` | laws of nested dictionaries; invariant over event lists; linear arithmetic on exact rationals instead of floats |
| C51, C52, C62, C64, C65 | `Config`: environment look-ups, configuration file, application and file names | relational specification of the documented variable names; induction on texts; refutations of isolation |
| C53, C66 | `Lock`: processes interleaving around the lock file, one system call at a time | invariant for serialised starts; refutations of the race, of signals between users and of restarts |
| C54, C55, C63, C67 | `Logs`: logger, levels, buffering handler, formatter, rotating file | refinement to the list of accepted records; invariants of the renaming loop; refutations of attribution, configured level and size |
| C56, C57 | `Shipper`: tracked file, delivery loop | invariant relating bytes read, pending and delivered; refutations |
| C58 | `Prom`: translator on statistics trees | generators as lists with an exception; shape invariant of the keeper's reports (`Stats`), then an exact characterisation of what is exported; refutations for route depth other than two |
| C68, C69 | `Scrape`: discovery in the environment, the polling loop's health gauge | direct, using the variable names of `Config` and the reports of `Stats`; induction on the list of services; refutations |
| C59 | `Cli`: options, address, dispatch of `bem` and `bsm`, the management endpoints and the keepers | case analysis over the options, with the invariants of `Pending` and `Buffered` for the answers; refutation for `bsm` |
| C70 | `Cli`: `stat`, `eco.statistics.get` | direct, from C49; refutation for a history of length 0 |
| C60 | `Wire`: JSON text writer and reader, line framing, fields of messages | round trip by mutual induction on JSON values; reading is stable under extension of the text, so a cut-off message is never read |
| C71, C72 | `Traces`: the two tracing middlewares as steps of interleaved requests and attempts, with restarts | invariant: the span numbers in the dictionaries and among the finished ones are distinct; frame lemmas per event; refutations by an invariant for lost spans |
| C73 | `Envelope`: the formatter's line, the shipper's `sscanf`/`timegm`, the OTLP payload; a collector's reader as specification | calendar round trip (counting years against the formula, by `omega`), scanning of padded numbers, C60 for the JSON of a line; refutations |
| C74 | `Life`: entering, starting, ending of the context as steps before which a signal may arrive; buffered components, servers' start phases, `asyncio.run`'s cancelling | shape invariant of the components after an attempt to set them up, preserved by cancelling, determines what shutting down does; composed with C06; refutations |
| C75 | `Life`: frames an exception passes through, by what the application is doing | case analysis, induction over the application's own frames; refutations |
| C76 | `Delivery`: a buffered sender, the tries of its client, requests and replies under way and a buffered endpoint (and its other clients) as one transition system; sender and endpoint are the models of C16–C26 | invariant that what is under way on the client's present connection belongs to the message being sent; each side's run projects to a run of its own model, so C17 and C25 compose to an accounting across both; refutations by late replies |
| C77 | `Delivery`: the same | invariant that acceptances do not exceed successes at the sender, plus one while an answer is under way; with C17's exact accounting; refutation by a late reply |
| C78 | `Tasks`: an event loop with tasks, handles run first-in first-out, contexts copied on creation, blocks that set and reset the current key, queues and workers; programs are trees | specification: a recursive function that gives every line of a program its key, without any scheduler; per line, what was logged plus what is still to be logged never exceeds (without exceptions: equals) what was asked for, by induction over the run; refutation for workers of buffered senders |
| C79 | `Tasks`: `run_soon`, `fire_and_forget_task`, `FIRE_AND_FORGET_TASKS` | invariants: calls begun followed by calls waiting are numbered 0, 1, …; the set against the tasks that are not over |
| C80 | `Chain`: the sender decorators, Python's binding of arguments, `span_key if span_key else generate()`, keys as JSON text, endpoint functions as interaction trees; the relation "comes about because of" | induction over the chain and the tree; text round trip from C31/C60; one item per key from C02 for the refutation of merged messages |
| C81 | `Wiring`: decorators, routing table, keepers, opening at the start, singletons | tables characterised after any list of declarations (first endpoint, last sender) by induction from the right; each object once in the list of what is opened |
| C82 | `Buffered`: the same model; schedulers as functions from states to events | a measure (attempts left, workers to start, requests on their way in) that every event decreases; progress from C18/C19 (`Awake`); accounting from C17/C25 |
| C83 | `Hooks`: middleware manager and worker loop for one message, hooks as functions that may change their arguments and raise; Python values and what JSON makes of them | induction over the list of hooks for the calls; invariant (stored metadata is a fixed point of storing) over attempts and reprocesses; refutations by concrete hooks |
| C84 | `Cli/LogTool`: log.py, its senders and the log endpoints over the logger of `Logs` | tool and endpoints refine the log's own events; then C63 and C54 |
| C85 | `Stats/Flatten`: `flatten_dictionary` over the stores of `Stats` | total description by mutual induction on nested dictionaries; invariant that the keeper writes only segments without dots; joining and splitting are inverse |
| C86 | `Address`: the checks of utility_functions.py, `IPv4Address`, the regular expression, `make_tcp_udp_host_port` | splitting and joining are inverse; the backtracking match characterised; numbers up to 255 by complete evaluation |
| C87 | `Cli/Help`: argparse_formatter.py | induction over the words with the state of the loop; white space as a parameter |
| C88 | `Cli/Screen`: json.dumps(indent=4), model_dump_json(indent=4), the messages and DTOs of the management endpoints, print_response of the tools | scanner of C60 on the indented text by mutual induction; the screen split into lines, a line of dashes occurs in no value; composition with C59 |
| C89 | `Telemetry`: the data points of examples/telemetry/telemetry_example.py over the reports of `Stats` | the exact set of points, via C85 (flattening), C48 (counts and percentiles) and the invariant that the store fits the places registered; a route survives `replace` iff it has no statistic's name as a part |
| C90 | `Telemetry.makeClient`: choice of client and machine name | branch by branch over C86 |
| C91 | `Address/Url`: is_valid_url with urllib.parse.urlsplit | exact characterisation of scheme and authority; hosts in brackets and Unicode normalisation are parameters |
| C92 | `Fun`: tracker database of the example applications | induction over the sequence from its end: the table is the keys heard of, in order, each with what was logged last |
| C93 | `Fun`: the router's endpoint; services and characters beyond ASCII are parameters | first and second word characterised without the model's split/strip/lower; branch by branch |
| C94 | `Fun`: lottery and dice, chance as a parameter | induction over the draws; both directions (what is shown is admissible, what is admissible can be shown) |
| C95 | `Pace`: the sender of `Buffered` with a clock, sleeping workers and the calls made, on top of its transitions; the clients' retry loops with times | invariant over all runs; erasing the times gives a run of `Buffered` |
| C96, C97 | `Link`: the connections, tasks, read lock and heartbeat task of a persistent client, code between suspensions as one event; clock | invariant over all runs (connections, attempts per task, sleeping times); explicit runs for regaining |
| C98 | `Transient`: the connections of a transient client, any number of calls at once, code between suspensions as one event | invariants over all runs; explicit runs for the refutations |
| C99 | `Datagram`: the sockets, futures and calls of a datagram client, a network that loses and reorders | a measure (sockets and those being opened) that does not grow once there is a socket; invariant for replies; explicit runs for the refutations |
| C100 | `Counted`: `Server` (requests of a session) with `Stats` (what the keeper counts) | induction over the session, then `C48_calls_partial` |
| C101 | `Grammar`: the grammar of RFC 8259 as an inductive relation, apart from the reader of `Wire`; key texts in any case | mutual induction over the grammar; induction over the reader's steps for the converse |
| C102 | `Startup`: asyncio's loop turn by turn (`_run_once`, `gather`, `run_until_complete`), `__start`, code of `setup_tasks`, oracle for what tasks do | invariants of queue of handles, tasks and `gather`; three-turn argument; refutations |
| C103 | `Args`: `ArgumentParser.parse_args` for options with one value or none (classification of arguments, abbreviations, "=", one-letter names, exclusive group, required options), the six parsers, the tools from `argv` on | uses of options as specification; induction over uses (understood) and over tokens (said); the rest follows |
| C104 | `Queue/Memory` (model of `Queue`) | representation invariant of C01 bounds the pages; one-step theorems for each call; induction over calls (memory only) and over pushed messages (layout, exact numbers) |
| C105 | `Place` (joins `Config` and `Life`) | the configured directory put into the names of the files, `dirname` computed symbolically; invariant `Idle` over the body of the context and the shutdown; concrete witness for the refutation |
| C106 | `Place/Props` (model of `Life`) | invariant `Calm` over the body of the context; induction over the components shut down; witnesses for the two refutations |
| C107 | `Long`: `readline` with what it leaves in the buffer, one connection of a client | invariant: what has not been read is what is left of the answer waited for; the refutation for every long response, every first piece and any number of later requests |
| C108 | `Gather`: the loop of `gather_statistics` as steps between tests and suspensions, with the time its sleeps take | invariant over the number of steps; closed form of the times; refutation by induction on the rounds |
| C109 | `Serve`: the tasks of connections and of datagrams, what each of them waits for, `asyncio.Lock` as a fair queue | enabledness of each connection's steps in every state; invariants (order of arrival, whoever is waited for comes first) over all sequences of events |
| C110 | `Size`: one message by datagram with the longest datagram the network takes, the client's retry loop and that of a buffered sender | case analysis on the sizes; closed forms of both loops by induction |
| C111 | `Listen`: any number of applications that start and stop servers on the addresses of one machine, with the socket files that stay behind | invariants over sequences of events: who a port leads to, who made a socket file |
| C112 | `Listen`: `__aenter__` and `stop` of the three servers on a machine that may refuse the address | case analysis |
| C113 | `Stream/Acted` (model of `Stream`) | invariant over all events, resets included: the lines acted on are a prefix of those that arrived; the state is that after these lines or one more |
| C114 | `Batches`: the shipper's loop over any number of files, with a collector that answers as it likes | simulation: a pass seen from one path is a function of that path alone; invariant: the lines taken are the first ones, as many as the store says |
| C115 | `Over`: the attempts of stream clients on top of `Stream` (server's side of the connection) and `Client` (retry loops) | C113 with monotony of the lines of a stream; induction over attempts |
| C116 | `Poll`: the exporter's rounds of sleeping, polling and pushing in ℚ-valued time; how long things take and who answers when is free | induction over services and rounds; least round after the change (Archimedean) |
| C117 | `Wait`: sends through one datagram client, or one persistent client that is connected, with the lock, time-outs and sleeps, as events in ℚ-valued time; the attempts of a transient stream client with the time they take | invariant on what every attempt may still take by its place in the queue; least timer for progress |

## Not modelled

* Garbage collection of a worker that was left suspended when a second signal interrupted the cancelling of tasks (its `finally` would then save the queue).
* Sockets, signals, real time, operating-system scheduling: only the events they cause.
* In `Tasks` (C78, C79): cancellation (see `Life`), threads, and contexts given explicitly (`context=`), which the code does not use.
* SQLite's durability: a committed transaction survives a crash, an uncommitted one leaves no trace.
* The bytes between the two applications in `Delivery` (C76, C77): requests and replies are delivered whole or not at all (the framing is C38–C43, the text C60).
* pydantic's schema validation beyond success/failure of decoding.
* The text of the log shipper's payload (`dump()`): C73 is about the JSON value; nlohmann's parser is taken to read what `json.loads` reads.
* Windows-specific paths, logging to the console, the example applications but for the telemetry example (C89, C90), the tracker, router and lottery of the fun applications (C92-C94) and the dice (C94). Of the telemetry example: the influx client, whose points are taken as given to it, and its output.

## Disagreements found between code and expectation

Each entry names the property, what the code does, and the theorem that shows it.

* C07 (`C07_order_refuted`): `__load_back_page` reads the newest rows newest first and pushes them in that
  order, so the last page comes back reversed after a restart. `C07_restart_order` gives the exact order.
* C10 (`C10_first_keys_refuted`): only the front page is listed, which may even be empty while items are queued.
* C11 (`C11_pop_none_refuted`, `C11_forever_refuted`): with page size 0 every load reads no rows. Once two items are
  queued, or the queue is opened on a file with items, `pop` answers nothing for ever. 0 is what
  `BufferedRequestHandlerBase` takes when no page size is given (buffered_handler_base.py 37).
* C12 (`C12_second_shut_down_refuted`): when both pages are one object, writing the front page leaves the same
  entries in `back_page`; the reported size doubles and a second `shut_down` violates the `UNIQUE` constraint.
* C13, C14 (`C13_reprocess_all_refuted`, `C14_reprocess_one_refuted`): a failed item whose key is pending again is
  popped from the error queue, and its push to the pending queue is ignored as a duplicate: its payload is lost.
* C15 (`C15_operator_calls_refuted`): `if not buffered_request` is also true for `{}`, so requests without fields are
  reported as missing, although popping or reprocessing does remove or move them.
* C33 (`C33_span_ids_refuted`): `int(s, 16)` accepts a sign, `0x`, underscores and blanks, so negative span ids and
  several texts for one id are accepted; a negative id has no byte form and comparing it raises.
* C17 (`C17_never_lost_refuted`): an exception raised by a processing hook or by `process_buffered_request` leaves the
  worker loop (buffered_handler_base.py 180-207 has `finally` but no `except`); the popped request is in neither queue.
* C18 (`C18_awake_refuted`): `run` creates the push as a task (bh 227) and looks for a living worker at once (bh 228); the worker
  may end before the push runs. The request then waits until the next request or operator command.
* C19 (`C19_awake_refuted`), C25 (`C25_never_lost_refuted`): a stored payload that does not validate ends the sender's worker
  (bs 92-94 is outside the `try`), loses that message and leaves the rest without a worker; so does cancellation.
* C20 (`C20_paused_refuted`): reprocess commands end by unpausing, whatever the state was before and even if they found nothing.
* C26 (`C26_stop_refuted`): a terminating signal cancels the worker during an attempt and the push tasks; those messages are in
  no file afterwards.
* C27 (`C27_pop_refuted`): once the ring is broken (see C29), `clear` does not reach every node; a node it missed is later
  linked in again and `pop()` gives back its old value. Look-ups by key are never wrong (`C27_lookups_never_wrong_partial`).
* C28 (`C28_capacity_refuted`): removed nodes stay in the ring and `__setitem__` still inserts new ones, while a full cache reuses
  the empty ones and lets the dictionary grow. The excess is at most the number of removals (`C28_capacity_partial`).
* C29, C30 (`C29_eviction_refuted`, `C29_small_refuted`, `C30_iteration_refuted`): `tail` is set once and never again; when
  that node is moved to the front, the next insertion links between it and the head and cuts nodes out of the ring. A cache with
  `max_size` 1 raises `AttributeError` on the second key.
* C34 (`C34_schema_refuted`, `C34_unhandled_refuted`): `RequestDTO(**request_dict)` of a JSON value that is not an object raises
  `TypeError`, so it is answered 999 instead of 300 (the same holds for request data that is not an object); the `except` clauses
  of `_route_request` also catch `JSONDecodeError` and `ValidationError` raised by application code.
* C37 (`C37_undecodable_refuted`, `C37_long_refuted`): `_handle_request` catches only `ConnectionResetError`; a line that is not
  UTF-8 (`UnicodeDecodeError`) or longer than asyncio's 65536 bytes (`ValueError`) ends the task without a reply.
* C38 (`C38_datagram_refuted`): the datagram server compares the first byte with ACK (6) instead of ENQ (5) (udp.py 36), so an
  enquiry is handed to the router as a request.
* C21 (`C21_busy_refuted`): the exception for a paused endpoint carries status 500, but `_route_request` does not map it, so the
  reply is 999; a buffered sender treats that as fatal and moves the message to its error queue instead of retrying.
* C42 (`C42_denied_refuted`, `C42_data_refuted`, `C42_malformed_refuted`): status 200 runs `request.data.json()` on plain data
  (`AttributeError`); a success without an object ends in `TypeError`; a reply that is not JSON in `JSONDecodeError`.
* C43 (`C43_zero_refuted`, `C43_reconnect_refuted`): with `max_retries` <= 0 nothing is sent and `None` is parsed (`TypeError`); a
  failing reconnect inside the `except` of the persistent client escapes as `OSError`.
* C44 (`C44_late_refuted`, `C44_shift_refuted`, `C44_lost_refuted`, `C44_datagram_refuted`): a reply arriving after the time-out stays
  in the connection and is returned for the next request, and so on for all later ones. Span keys are never compared.
* C45 (`C45_disturbed_refuted`): `self.success` belongs to the client object; a send about to retry sees the success of another send,
  leaves its loop and returns `None`.
* C46 (`C46_negative_refuted`): `clear_some` with a negative number subtracts it, and the clearing endpoint passes any integer on.
* C47 (`C47_reserved_refuted`): every report replaces `application`, `timestamp`, `uptime` and `gather_period`, whatever the
  application stored below them.
* C48 (`C48_clash_refuted`): routes "a" and "a.p95" share a path: the percentile of "a" replaces the statistics of "a.p95"; gathering
  raises `TypeError`, and so does counting the next call, after the request was processed.
* C49 (`C49_lowered_refuted`): gathering drops at most one entry, so a lowered history length is never reached.
* C50 (`C50_high_refuted`): the 'exclusive' method extrapolates: with 2 to 98 calls p99 lies above the longest call measured.
* C51, C52 (`C51_isolated_refuted`, `C51_level_refuted`, `C52_others_refuted`): variable names are joined with underscores, which
  application names and instance ids contain as well: instance `worker_1` of `orders` and instance `1` of `orders_worker` share
  every instance level variable, and another application's settings can override this one's.
* C53 (`C53_race_refuted`, `C53_user_refuted`): between `os.path.exists` and `open(..., "w")` another process can pass the same check;
  a process of another user is taken for dead because `os.kill` raises `PermissionError`.
* C62 (`C62_host_refuted`, `C62_malformed_refuted`): a `tcp` entry with only a port resets the host to `127.0.0.1`; the environment is
  read and converted even if the file replaces its values.
* C64 (`C64_unique_refuted`, `C64_extension_refuted`): `FooBar.py` and `foo_bar.py` are one application; `.py` is removed anywhere.
* C65 (`C65_lock_refuted`, `C65_socket_refuted`, `C65_buffer_refuted`): names joined by `-` or `_` coincide.
* C66 (`C66_same_pid_refuted`, `C66_reused_pid_refuted`, `C66_empty_refuted`): the lock file is never removed on exit; a process that
  gets its predecessor's id (usual in containers) refuses to start; an empty lock file raises `ValueError` for ever.
* C54 (`C54_lowered_refuted`): `set_buffer_size` changes the capacity without writing what waits; only the next accepted record does.
* C55 (`C55_buffered_refuted`): `OtlpFormatter.format` asks for the current span key when the buffer is written, so with a buffer of
  two or more a line carries the trace id of whichever request filled the buffer (or none, if written at shut-down).
* C63 (`C63_ignored_refuted`, `C63_configured_refuted`): `EcoLogger.__level` is `logging.DEBUG` and `ConfigLogging.level` is never read.
* C67 (`C67_unicode_refuted`, `C67_no_files_refuted`): the size check adds characters to bytes; with `max_files` 0 the file grows for ever.
* C56 (`C56_two_rotations_refuted`, `C56_unanswered_refuted`, `C56_malformed_refuted`): `poll` only knows the file it has open and the one
  at the path; a batch whose answer is lost is sent again; `json::parse` and `record.at` throw out of `main`, and after the restart
  the same line is read again.
* C57 (`C57_rotated_while_down_refuted`, `C57_killed_in_outage_refuted`, `C57_inode_reused_refuted`,
  `C57_rotated_while_opening_refuted`, `C57_renamed_while_polling_refuted`): files already rotated away are never opened, inode numbers
  are the only identity of a file, and `stat` and `open` are two system calls.
* C58 (`C58_one_part_refuted`, `C58_three_parts_refuted`, `C58_clash_refuted`, `C58_custom_collision_refuted`): the translator has two
  nested loops, so only routes of two parts are exported; below `endpoint_data.a.b`, a route "a.b.p95" is a dictionary where a number is
  compared with 0 (`TypeError`), which ends the export and reports the service as down; names joined by `_` coincide.
* C68 (`C68_default_socket_refuted`, `C68_names_refuted`, `C68_file_refuted`): discovery reads the environment only; it takes the value of
  `ECOENV_UDS_*` for the file, while the server replaces the file name `DEFAULT`; it cuts the variable name at the last underscore and
  lower-cases the first part only.
* C69 (`C69_twice_refuted`, `C69_clash_refuted`, `C69_renamed_refuted`): the gauge has no label for the protocol, so the protocol polled
  last decides; an exception of the translator comes after health 1 was set and sets 0; health 1 is set under the labels the service
  reports, health 0 under those discovered.
* C59 (`C59_bsm_refuted`): the sender tool reads the attributes `pause_receiving`, `pause_all` … that only the endpoint tool's parser defines
  (its own options are `-ps` and `-us`), so every run that gets so far ends with an `AttributeError` and nothing is sent.
* C59 (`C59_address_refuted`): `-sd` is split at colons into exactly two parts, so that IPv6 addresses are a `ValueError`; for an empty host or
  port `print_error` is called with one argument too few, a `TypeError`.
* C70 (`C70_gathered_refuted`): with a history of length 0 a gathered period is shown as `{}`.
* C60 (`C60_nonfinite_refuted`, `C60_digits_refuted`, `C60_long_refuted`): `model_dump_json` writes NaN and the infinities as `null`;
  `json.loads` refuses whole numbers of more than 4300 digits with a plain `ValueError`, which the server answers with status 999 instead
  of 100; the clients read responses through a `StreamReader` with its default limit, whatever the server has written.
* C71 (`C71_failed_refuted`, `C71_leak_refuted`, `C71_same_key_refuted`, `C71_zero_refuted`): `after_routing` does not run when the
  handler raises, so failed requests are never exported and their spans stay in `_active_spans` for ever; a request repeated with the
  same span key while the first is in progress replaces its span; OpenTelemetry takes a zero trace or span id as "no parent".
* C72 (`C72_crash_refuted`, `C72_same_key_refuted`): the same for attempts. (The documentation says that after a restart an attempt
  cannot be linked to the request's span; it can, since the metadata is stored with the request, and `C72_child_partial` covers restarts.)
* C73 (`C73_resource_refuted`, `C73_time_refuted`): the README says the identity is pulled from each line's own attributes; it is pulled from
  the first line of the batch only, so lines of other applications or instances in the same file stand under the wrong resource (their own
  attributes are right, `C73_mixed_partial`). Nanoseconds since 1970 wrap around in July 2554.
* C74 (`C74_half_started_refuted`, `C74_not_started_refuted`, `C74_interrupted_refuted`): the documentation says queues are shut down even after a
  terminating exception or signal. `__aenter__` of the TCP and UDS servers sets `_running` before `_server`, and cancellation is not an
  `Exception`; a signal while a server starts therefore makes `stop()` raise `AttributeError` in `__exit__`, and no queue is saved.
  Components that were not set up raise `AttributeError` too, so the log is not flushed. One failing save, or a second signal, skips the rest.
* C75 (`C75_busy_refuted`, `C75_stop_refuted`): the documentation says it is completely safe to terminate with `kill`. The signal handler raises an
  ordinary `Exception` in whatever code is running: a request's handler (client gets status 999 "Exit signal received"), a buffered endpoint's
  worker (its request is gone, as in C17), a buffered sender (message into the error queue); the application goes on. `stop()` does not stop
  a running application.
* C76 (`C76_persistent_refuted`, `C76_datagram_refuted`): a late reply is taken for the reply to the next message (see C44), so a buffered
  sender over a persistent or datagram client can count a message as sent that the endpoint turned away or never got.
* C77 (`C77_twice_refuted`): a time-out after the request was written makes the client write it again; the endpoint does not look for
  span keys it has already processed, so the message is processed twice.
* C78 (`C78_sender_refuted`): the worker of a buffered sender does not set the current span key (the buffered endpoint's does), and its task
  keeps the context of the request that happened to start it. What it logs while sending other requests' messages, such as the warning
  "Pushing message to error queue", is logged under that first request's trace and span id.
* C80 (`C80_positional_refuted`, `C80_merged_refuted`): the sender decorators look for `span_key` among the keyword arguments only; the same
  key handed over positionally is ignored, without an error, and the request gets a new key. Following the documentation, two messages that one
  endpoint call sends through the same buffered sender have the same key, and the second is dropped silently while the first is still
  queued (C02); the receiving buffered endpoint merges them in the same way.
* C81 (`C81_same_route_refuted`, `C81_late_refuted`): the keeper of buffered senders files them by route alone, so that of two buffered senders
  with the same route, for instance to two different applications, only the last declared is set up; the other's function raises
  `AttributeError` on every call, and no management command reaches it. Nothing warns about it, though endpoints with the same route are refused.
  Buffered components that are declared once the application runs are not set up either.
* C82 (`C82_late_push_refuted`): the consequence of C18 for liveness. An acknowledged request can be pending in an unpaused endpoint that can do
  nothing on its own; it waits for the next request or for an operator.
* C83 (`C83_tuple_refuted`, `C83_object_refuted`, `C83_in_place_refuted`, `C83_after_refuted`): documentation/middleware.md says that metadata is passed on
  unchanged and that `after_process` is called whether processing succeeded or failed. Tuples come back as lists and integer keys as strings;
  metadata that pydantic cannot serialise makes the background push fail after the request was acknowledged, so the message is lost; a
  handler or hook that changes the objects it is given changes them for the retries; when the handler raises, `after_process` is not called.
* C84 (`C84_both_refuted`): asked for level `error` and buffer size 0 together, the tool sets the level first. The messages that the endpoint logs, and
  that would have written the buffer, are then below the level, so that what was buffered stays in memory although the answer says 0.
* C85 (`C85_dot_refuted`, `C85_general_refuted`): an empty segment at the beginning of a key is dropped by flattening, so that the routes "a" and ".a" share one
  entry and one of the counts is lost. Dictionaries in which keys may have dots, which the keeper never writes, can lose values in the same way, and empty
  dictionaries leave no trace.
* C86 (`C86_read_refuted`): `is_valid_port_number` only asks for digits, so that 99999 is a port; `$` also matches before a line feed at the end, so that every
  label of a host name may be followed by one; an empty host name raises `IndexError` and a text without a colon `ValueError`.
* C87 (`C87_long_refuted`): when the first word of a line is longer than the width, the loop appends the still empty line before it.
* C89 (`C89_name_refuted`, `C89_standard_refuted`): the telemetry example finds the route by removing ".call_count" (".p95", ...) wherever
  it occurs in the key, so "a.b" and "a.call_count.b" are written under one route; everything below "eco" is left out, the application's own too.
* C90 (`C90_uds_refuted`): for UDS the example checks whether a file called "uds" exists (the server type) instead of the socket file.
* C91 (`C91_refuted`): urlsplit drops control characters and spaces at the beginning and line feeds anywhere, so " \nht\ntp://x" is taken for
  a URL; "http://:99999" and "http://@" are, too, though they name no host.
* C93 (`C93_refuted`): `is_number` strips any number of minus signs and `int` takes one, so "lotto --5" raises; a blank before the first word
  makes every request a question for the magic eight ball.
* C94 (`C94_dice_refuted`): `range(1, sides)` leaves out the highest side, and a die with one side raises an `IndexError`; roll_times adds one,
  so there no throw shows a 1.
* C95 (`C95_transmissions_refuted`): the wait period spaces the calls of the client, not the attempts the client makes on its own, which are
  `retry_delay` apart (a tenth of a second unless told otherwise).
* C20 (`C20_waiting_refuted`): a worker takes its message from the queue before it waits and does not look at the pause flag after it, so that
  one message is sent up to a wait period after sending was paused.
* C96 (`C96_first_refuted`): `last_send` is 0 at first, so the heartbeat task that the first message starts finds a heartbeat due while the message is
  still waiting for its connection; `__check_connected` has no lock, so a second connection is opened and replaces the first. The first's writer
  is dropped, which closes it (`StreamWriter.__del__`, Python 3.11.6 and later), the message's reader sees the end of the stream, and the
  retry loop sends the message again: in a network without faults the server gets the first message twice. Older versions leave the first
  connection open instead.
* C97 (`C97_regain_refuted`): `__do_heartbeat` catches `ConnectionRefusedError` only; a time-out of its read, a reset, or another failure to connect
  ends the heartbeat task with an exception nobody sees, and only the next message starts another.
* C68 (`C68_phantom_refuted`): `discover_local_services` takes every `ECOENV_TCP_...` variable for a service, also one without an instance id, which
  the application ignores; it is polled as instance `0` and counted as unhealthy.
* C73 (`C73_attributes_refuted`): `attribute_kv` reads whole numbers with `get<int64_t>`; those from 2^63 to 2^64 - 1 become negative. The framework
  itself only logs line numbers there.
* C98 (`C98_resent_refuted`): `wait_closed` comes after the response was read and inside the same `try`; when it raises (the peer has reset the
  connection), the response is thrown away and the message is sent again. A server that answered may handle a message twice although no
  response was lost.
* C98 (`C98_left_open_refuted`): the writer is closed after a response only. The connections of attempts that timed out or failed stay open
  until the writer is collected (Python 3.11.6 and later), or for good with older versions, where the event loop still refers to the transport.
* C99 (`C99_many_refuted`): `initialised` is tested before a suspension and set after it, without a lock: `n` first messages at once open `n` sockets,
  of which the client forgets all but the last; nothing closes them.
* C100 (`C100_status_refuted`): application code may raise a routing exception with status 0; the client is told of success, the statistics are
  not told.
* C102 (`C102_leftover_refuted`, `C102_late_refuted`): documentation/setup_tasks.md says that the application's tasks run before the first request reaches
  any endpoint. The workers of buffered endpoints are created while these are set up, before `setup_tasks` is called, and a request left over from an earlier
  run is handled before the tasks begin. If `setup_tasks` waits for anything, the servers begin to listen meanwhile.
* C103 (`C103_abbreviated_refuted`): argparse accepts short forms of options, also of those with one dash: `bem ... -c` deletes all errors of the queue, as
  `-clr` does.
* C103 (`C103_rid_refuted`): documentation/command_line_tool.md 103, 113, 118, 152, 162, 167 has `-rid` for the entry to be moved, deleted or inspected. No
  parser has it (it is `-sk`), every such command is refused. The tools are also called `qem` and `qsm` there; they are `bem` and `bsm`.
* C103 (`C103_dash_value_refuted`): a value that begins with a dash is refused behind its option, and accepted behind "=".
* C93 (`C93_too_long_refuted`): a number of lotteries with more than 4300 digits is refused by Python's `int` with a `ValueError` that nothing handles.
* C104 (`C104_layout_refuted`): documentation/buffereds/understanding_queues.md says that a size of 5000 with pages of 1000 means 1000 entries in the front
  page and 1000 in the back page. That is so after 5000 pushes and after a restart; in general either page can have as few as one.
* C104 (`C104_memory_only_refuted`): a queue can write to its file although it never held more than one and a half pages (messages taken out by key leave
  the front page empty while the back page is full).
* C105 (`C105_none_refuted`): "Ecosystem will NEVER try to use some kind of default for the location of buffering databases". Without a setting the name of the
  directory is `None`, by way of an f-string; if there is such a directory where the application runs, it is used.
* C106 (`C106_busy_refuted`, `C106_failed_refuted`): the exit status is 0 whatever exception ends an application that has started, because `__exit__` returns
  `True`; and a signal while the tasks are cancelled can leave the queue of a busy worker unsaved with exit status 0.
* C107 (`C107_shift_refuted`): a response of more than 64 KiB that arrives in pieces makes `readline` of a persistent client throw away the first piece and raise
  `ValueError`; the client reports `CommunicationsNonRetryable` but keeps the connection. From then on every request gets the response to the
  one before it (until a heartbeat notices).
* C108 (`C108_zero_refuted`): `ECOENV_STAT_GP=0` is accepted, and then `gather_statistics` loops without ever suspending. Its task runs before those of the servers
  (application_base.py 294-297), so the application starts, gathers statistics as fast as it can, and never listens.
* C109 (`C109_datagram_refuted`, `C109_self_refuted`): `DatagramProtocolServer.do_response` holds `__write_lock` while the endpoint runs, not only while it
  writes (which does not suspend at all), so requests by UDP are worked on one at a time. An endpoint that asks an endpoint of its own application by UDP
  waits for a lock held by itself, until its client gives up.
* C110 (`C110_request_refuted`, `C110_response_refuted`): asyncio tells of a datagram that is too long through `error_received`, which neither protocol class
  overrides. The client waits for its time-out and tries again, and a buffered sender tries that again; an endpoint with a long response is called each time.
* C101 (`C101_documented_refuted`): the requests by `netcat` in documentation/statistics_keeper.md (72, 216, 351) have a `uid` and no `span_key`; every server
  refuses them with status 300. Those of the examples base and echo are read.
* C111 (`C111_taken_refuted`): `asyncio.start_unix_server` removes a socket that is in its way, also one on which another application is listening. The lock
  file keeps two processes of the same name and instance apart, but not two applications with the same socket file (see C65 for how names can collide).
* C112 (`C112_hidden_refuted`): the `except` clause in `__aenter__` of the TCP and UDS servers calls `self._server.close()` while `_server` is still `None`. The
  `AttributeError` takes the place of the `OSError`.
* C114 (`C114_stuck_refuted`): the log shipper sends all lines of a file that it has not sent yet as one batch, and the same batch again when it is refused. A collector with a
  limit for requests (status 413, say) refuses it for ever: no line of that file is delivered any more, also after restarts, which make the batch longer.
* C41 (`C41_uid`): benchmarking/ping_pong/pong.py 16 and documentation/buffereds/technical_stuff.md 115 declare `uid`, which handlers are not given (`span_key` has taken
  its place). Such an endpoint is never called.
* C115 (`C115_again_refuted`): a stream server ends the connection when a line is too long for it, without a reply. A persistent client takes this for a broken connection: it
  connects anew and sends the same request `max_retries` times, and the error it then raises makes a buffered sender do all of it again. The error does not say what is wrong.
* C65 (`C65_question_refuted`): the path of a database is put into a URL for SQLAlchemy (paginated_queue.py 125), in which a question mark ends the path. A route with a question mark
  has one database for its pending and its failed entries, shared with all routes that agree up to there. (SQLAlchemy's rule is taken from its documentation; its source is not part of
  /repo.)
* C116 (`C116_period_refuted`): documentation/observability.md 35-36 says that services are polled at the gather period interval. The exporter sleeps for the period and then polls
  one service after the other. A service that does not answer delays the reports on all of them by the time its client takes to give up, in every round.
* C117 (`C117_others_refuted`): a datagram client holds its lock while it waits for the reply, as does a persistent client its lock for reading, and `timeout` begins only when the lock has been taken. Of n sends through one client to
  a silent server the last one ends after n time-outs for each attempt.
* C117 (`C117_connect_refuted`): the time-out of stream clients covers reading the reply only. Connecting to a host that drops packets takes as long as the system tries, ends in a
  `TimeoutError`, and is then repeated `max_retries` times.
