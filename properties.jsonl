{"id": "C01", "title": "Paged queue is first-in first-out", "statement": "Popping from a persistent queue returns the queued items in exactly the order in which they were first pushed, whichever of the memory pages or the database the items happened to live in meanwhile.", "quantifier": "every page size >= 1 and every finite history of push, pop, inspect, pop-by-key, list-first and clear calls on one open queue, with any keys and payloads", "why_tests_cant": "The hand-over between front page, database and back page depends on the whole history and the page size; a test follows one history.", "anchors": ["ekosis/queues/paginated_queue.py::PaginatedQueue.push", "ekosis/queues/paginated_queue.py::PaginatedQueue.pop", "ekosis/queues/paginated_queue.py::QueuePage"]}
{"id": "C02", "title": "Push is idempotent per span key", "statement": "Pushing an item whose span key is already held anywhere in the queue changes nothing: the first payload is kept, the size and the order do not change. At no time does the queue hold two items with one span key.", "quantifier": "every page size >= 1, every reachable queue state, every key and payload", "why_tests_cant": "The duplicate may sit in either memory page or in the database; reachable placements are unbounded.", "anchors": ["ekosis/queues/paginated_queue.py::PaginatedQueue.push", "ekosis/queues/paginated_queue.py::PaginatedQueue.__check_record_exists"]}
{"id": "C03", "title": "Queue size is exact", "statement": "size() is the number of items pushed and not yet removed, and is_empty() is true exactly when that number is zero.", "quantifier": "every page size >= 1 and every finite operation history", "why_tests_cant": "The count is summed over two pages, which may be one shared object, and the database.", "anchors": ["ekosis/queues/paginated_queue.py::PaginatedQueue.size", "ekosis/queues/paginated_queue.py::PaginatedQueue.is_empty"]}
{"id": "C04", "title": "Inspecting is exact and harmless", "statement": "Inspecting a span key returns the payload of the queued item with that key, returns nothing exactly when no such item is queued, and leaves the queue as it was.", "quantifier": "every page size >= 1, every reachable queue state, every key", "why_tests_cant": "The item can be in three places in any reachable configuration.", "anchors": ["ekosis/queues/paginated_queue.py::PaginatedQueue.inspect_span_key"]}
{"id": "C05", "title": "Removing by key removes just that item", "statement": "Popping a span key returns its payload and removes exactly that item; all other items keep their payloads and relative order; popping an absent key changes nothing.", "quantifier": "every page size >= 1, every reachable queue state, every key", "why_tests_cant": "Removal works on three different representations; the untouched rest must be compared in all of them.", "anchors": ["ekosis/queues/paginated_queue.py::PaginatedQueue.pop_span_key", "ekosis/queues/paginated_queue.py::QueuePage.pop_entry"]}
{"id": "C06", "title": "Graceful stop and reopen keeps every item once", "statement": "After shutting a queue down and opening it again, with the same or another page size, the queue holds exactly the same items with the same payloads, none lost and none doubled.", "quantifier": "every reachable queue state, every page size before and after, any number of stop/open cycles", "why_tests_cant": "Unbounded histories before the stop; the reload path splits the items at page boundaries.", "anchors": ["ekosis/queues/paginated_queue.py::PaginatedQueue.shut_down", "ekosis/queues/paginated_queue.py::PaginatedQueue.__do_initial_load"]}
{"id": "C07", "title": "Order survives a restart", "statement": "After a graceful shut-down and reopen the items are popped in the same order in which they would have been popped without the restart.", "quantifier": "every reachable queue state and page size", "why_tests_cant": "The order depends on how many items exceed a page when the process stops.", "anchors": ["ekosis/queues/paginated_queue.py::PaginatedQueue.__load_back_page", "ekosis/queues/paginated_queue.py::PaginatedQueue.__load_front_page", "ekosis/queues/paginated_queue.py::PaginatedQueue.shut_down"]}
{"id": "C08", "title": "A crash loses at most two pages", "statement": "If the process dies at any moment, reopening the queue recovers a subset of the items that were queued; at most 2 x page_size items are missing, every recovered item has its original payload, and no item that had already been removed comes back.", "quantifier": "every page size >= 1, every operation history, every crash point between or inside operations (at each database commit)", "why_tests_cant": "Crash points and histories are unbounded and a test cannot stop the process at every commit.", "anchors": ["ekosis/queues/paginated_queue.py::PaginatedQueue", "documentation/buffereds/buffered_endpoints.md"]}
{"id": "C09", "title": "Clear empties memory and disk", "statement": "After clear() the queue has size 0, and reopening it, gracefully or after a crash, finds nothing.", "quantifier": "every reachable queue state", "why_tests_cant": "All placements of items in pages and database must be covered.", "anchors": ["ekosis/queues/paginated_queue.py::PaginatedQueue.clear"]}
{"id": "C10", "title": "Listing the first keys lists the head of the queue", "statement": "Asking for the first x span keys returns the first min(x, size) keys in queue order.", "quantifier": "every reachable queue state, every integer x", "why_tests_cant": "Whether the listing is complete depends on where the items live.", "anchors": ["ekosis/queues/paginated_queue.py::PaginatedQueue.get_first_x_span_keys", "ekosis/queues/paginated_queue.py::QueuePage.get_first_x_span_keys"]}
{"id": "C11", "title": "Pop answers 'nothing' only when the queue is empty", "statement": "pop() returns nothing exactly when the queue holds no item.", "quantifier": "every configured page size, every reachable queue state", "why_tests_cant": "The failing configuration only shows once items have spilled to the database.", "anchors": ["ekosis/queues/paginated_queue.py::PaginatedQueue.pop"]}
{"id": "C12", "title": "Shutting down twice is harmless", "statement": "Calling shut_down() again after shut_down() neither fails nor changes what is stored, and the reported size stays the number of items.", "quantifier": "every reachable queue state", "why_tests_cant": "Depends on whether both page references denote the same page object at shut-down.", "anchors": ["ekosis/queues/paginated_queue.py::PaginatedQueue.shut_down", "ekosis/queues/paginated_queue.py::PaginatedQueue.__write_front_page"]}
{"id": "C13", "title": "Reprocessing all errors moves all of them", "statement": "Moving the whole error queue back puts every failed item, in its order, behind the items already pending, with retry count zero and with its payload and metadata unchanged, and leaves the error queue empty.", "quantifier": "every pair of reachable pending and error queues", "why_tests_cant": "The outcome depends on overlaps between two unbounded queues.", "anchors": ["ekosis/queues/pending_queue.py::PendingQueue.move_all_error_to_pending"]}
{"id": "C14", "title": "Reprocessing one error moves just that one", "statement": "Moving one failed item back by span key removes exactly it from the error queue and appends it to the pending queue with retry count zero and unchanged payload and metadata; an absent key changes nothing and reports nothing.", "quantifier": "every pair of reachable queues, every key", "why_tests_cant": "Two unbounded queues with arbitrary contents.", "anchors": ["ekosis/queues/pending_queue.py::PendingQueue.move_one_error_to_pending"]}
{"id": "C15", "title": "Operator error-queue calls tell the truth", "statement": "Popping, inspecting or reprocessing a failed request by span key reports 'not found' exactly when no such request was in the error queue.", "quantifier": "every error queue content, every payload including empty ones, every key", "why_tests_cant": "Truthiness of payloads is a data-dependent corner; tests use non-empty payloads.", "anchors": ["ekosis/requests/buffered_handler_base.py::BufferedRequestHandlerBase.pop_request_from_error_queue", "ekosis/requests/buffered_handler_base.py::BufferedRequestHandlerBase.reprocess_error_queue_span_key", "ekosis/state_keepers/buffered_handler_keeper.py", "ekosis/sending/buffered_sender_base.py"]}
{"id": "C16", "title": "A failing buffered request is attempted max(1, max_retries) times", "statement": "A buffered request whose handler always reports failure is handed to the handler exactly max(1, max_retries) times and then rests in the error queue with reason 'Max retries reached.'; one whose handler first succeeds at attempt k <= that number is attempted exactly k times and is gone from both queues.", "quantifier": "every max_retries, every sequence of handler outcomes, every initial queue content", "why_tests_cant": "The number of attempts is a property of all outcome sequences and of interleaving with other queued messages.", "anchors": ["ekosis/requests/buffered_handler_base.py::BufferedRequestHandlerBase.__do_queue_processing"]}
{"id": "C17", "title": "An accepted buffered request is never silently lost", "statement": "Every request for which the endpoint answered success is, at every later moment, waiting to be queued, pending, being handled, in the error queue, handled successfully, merged with a queued request of the same span key, or removed by an operator.", "quantifier": "every interleaving of request arrivals, worker steps, handler results (including exceptions), pauses and operator commands", "why_tests_cant": "Quantifies over all schedules and outcomes.", "anchors": ["ekosis/requests/buffered_handler_base.py::BufferedRequestHandlerBase.run", "ekosis/requests/buffered_handler_base.py::BufferedRequestHandlerBase.__do_queue_processing"]}
{"id": "C18", "title": "An unpaused buffered endpoint never sleeps on pending work", "statement": "Whenever processing is not paused and a request is pending, a worker is scheduled or running that will take it.", "quantifier": "every interleaving of arrivals, pushes, worker steps and suspensions", "why_tests_cant": "A lost wake-up needs one particular schedule.", "anchors": ["ekosis/requests/buffered_handler_base.py::BufferedRequestHandlerBase.run", "ekosis/requests/buffered_handler_base.py::BufferedRequestHandlerBase.__check_process_queue"]}
{"id": "C19", "title": "An unpaused buffered sender never sleeps on pending work", "statement": "Whenever sending is not paused and a message is pending, a worker is scheduled or running that will take it.", "quantifier": "every interleaving of enqueue calls, send outcomes, pauses, unpauses and reprocess commands", "why_tests_cant": "Quantifies over all schedules.", "anchors": ["ekosis/sending/buffered_sender_base.py::BufferedSenderBase.enqueue", "ekosis/sending/buffered_sender_base.py::BufferedSenderBase.__process_send_queue"]}
{"id": "C20", "title": "Pause means pause", "statement": "While processing is paused and until an operator unpauses it, no further request is started; requests keep being accepted.", "quantifier": "every interleaving and every set of operator commands", "why_tests_cant": "Needs all command orders, including reprocess commands issued while paused.", "anchors": ["ekosis/requests/buffered_handler_base.py::BufferedRequestHandlerBase.pause_processing", "ekosis/requests/buffered_handler_base.py::BufferedRequestHandlerBase.reprocess_error_queue", "ekosis/sending/buffered_sender_base.py::BufferedSenderBase.pause_send_process"]}
{"id": "C21", "title": "A paused receiver answers 'busy' and stores nothing", "statement": "While receiving is paused a request to the buffered endpoint leaves both queues unchanged and is answered with the application-busy status, so that buffered senders retry it.", "quantifier": "every request and every state", "why_tests_cant": "Composes endpoint, router, server and sender behaviour over all inputs.", "anchors": ["ekosis/requests/buffered_handler_base.py::BufferedRequestHandlerBase.run", "ekosis/servers/server_base.py::ServerBase._route_request", "ekosis/requests/buffered_handler_base.py::BufferedRequestHandlerReceivingPausedException", "ekosis/clients/client_base.py::ClientBase.generate_response_exception"]}
{"id": "C22", "title": "One message at a time", "statement": "A buffered endpoint or sender never handles two messages at once, and messages are started in queue order.", "quantifier": "every interleaving of arrivals, worker steps and operator commands", "why_tests_cant": "Overlap would need a rare schedule.", "anchors": ["ekosis/requests/buffered_handler_base.py::BufferedRequestHandlerBase._process_queue", "ekosis/sending/buffered_sender_base.py::BufferedSenderBase.__process_send_queue"]}
{"id": "C23", "title": "Metadata travels unchanged", "statement": "The metadata and payload stored when a buffered request is accepted are handed unchanged to the processing hooks and the handler on every attempt, through retries, the error queue and reprocessing.", "quantifier": "every history of retries and reprocess commands", "why_tests_cant": "Unbounded histories.", "anchors": ["ekosis/requests/buffered_handler_base.py", "ekosis/queues/pending_queue.py::PendingQueue"]}
{"id": "C24", "title": "Sender error classification", "statement": "A buffered message is retried when the server is busy or the communication attempts are exhausted, at most max(1, max_retries) times in all; any other failure puts it in the error queue immediately with that failure's text; success removes it.", "quantifier": "every max_retries and every sequence of send outcomes", "why_tests_cant": "All outcome sequences.", "anchors": ["ekosis/sending/buffered_sender_base.py::BufferedSenderBase.__do_queue_processing"]}
{"id": "C25", "title": "An enqueued message is never silently lost", "statement": "Every message accepted by a buffered sender is at every later moment pending, being sent, sent, in the error queue, merged with a queued message of the same span key, or removed by an operator.", "quantifier": "every interleaving and outcome, including cancellation of the worker", "why_tests_cant": "Quantifies over schedules and cancellation points.", "anchors": ["ekosis/sending/buffered_sender_base.py::BufferedSenderBase.enqueue", "ekosis/sending/buffered_sender_base.py::BufferedSenderBase.__do_queue_processing"]}
{"id": "C26", "title": "Stopping with SIGTERM/SIGINT keeps all unfinished messages", "statement": "After the application is stopped gracefully, every accepted and unfinished buffered message is in the database files and is found again at the next start.", "quantifier": "every state at which the signal can arrive", "why_tests_cant": "The signal can arrive at any await point.", "anchors": ["ekosis/requests/buffered_handler_base.py::BufferedRequestHandlerBase.shut_down", "ekosis/sending/buffered_sender_base.py::BufferedSenderBase.shut_down", "ekosis/application_base.py::ApplicationBase.__exit__", "documentation/buffereds/buffered_endpoints.md"]}
{"id": "C27", "title": "The cache never returns a wrong value", "statement": "A cache lookup returns the value most recently stored under that key, or reports a miss; lookups of keys never stored, deleted or evicted report a miss.", "quantifier": "every maximum size and every history of set, get, peek, pop, delete, clear", "why_tests_cant": "Unbounded histories over a linked structure.", "anchors": ["ekosis/cacheing/lru_cache.py::LRUCache"]}
{"id": "C28", "title": "The cache never exceeds its maximum size", "statement": "len(cache) <= max_size after every operation.", "quantifier": "every max_size and every operation history", "why_tests_cant": "The bound breaks only after specific delete/insert orders.", "anchors": ["ekosis/cacheing/lru_cache.py::LRUCache.__setitem__", "ekosis/cacheing/lru_cache.py::LRUCache.pop_item"]}
{"id": "C29", "title": "The least recently used key is evicted", "statement": "When a new key is stored in a full cache, the entry evicted is the one whose last set or get is the oldest.", "quantifier": "every max_size >= 1 and every operation history", "why_tests_cant": "Needs the recency order of arbitrary histories.", "anchors": ["ekosis/cacheing/lru_cache.py::LRUCache.__replace_least_recently_used", "ekosis/cacheing/lru_cache.py::LRUCache.__insert"]}
{"id": "C30", "title": "Iterating the cache yields each entry once", "statement": "Iterating keys, values or items yields every stored entry exactly once, most recently used first, and never fails.", "quantifier": "every max_size and history", "why_tests_cant": "Depends on integrity of the ring of nodes after arbitrary histories.", "anchors": ["ekosis/cacheing/lru_cache.py::LRUCache.items"]}
{"id": "C31", "title": "Span key text form round-trips", "statement": "Parsing the text form of a span key gives back the same span key, and different span keys have different texts.", "quantifier": "every 128-bit trace id and every 64-bit span id", "why_tests_cant": "2^192 keys.", "anchors": ["ekosis/data_transfer_objects/json_protocol.py::SpanKey.from_hex", "ekosis/data_transfer_objects/span_id.py::SpanId"]}
{"id": "C32", "title": "Span key byte form round-trips", "statement": "The byte form is 24 bytes long, rebuilding from it gives the same key, and two keys are equal exactly when their byte forms are.", "quantifier": "every span key, every 24-byte string", "why_tests_cant": "2^192 keys.", "anchors": ["ekosis/data_transfer_objects/json_protocol.py::SpanKey.bytes", "ekosis/data_transfer_objects/json_protocol.py::SpanKey.from_bytes"]}
{"id": "C33", "title": "Only 64-bit span ids are accepted", "statement": "Every span id accepted from hexadecimal text denotes a number in 0..2^64-1, and its text form is the (lower-cased) text it was read from.", "quantifier": "every string", "why_tests_cant": "Arbitrary 16-character strings, including signs, prefixes, blanks and underscores.", "anchors": ["ekosis/data_transfer_objects/span_id.py::SpanId.__init__"]}
{"id": "C34", "title": "Every request text gets one well-formed response", "statement": "For every request text the server produces exactly one response whose status is: parse error for malformed JSON, validation error for JSON violating the request schema, the routing error's own status for routing failures, unhandled for any other exception, and success otherwise.", "quantifier": "every request text, every handler table, every handler outcome", "why_tests_cant": "Arbitrary inputs and handler behaviour.", "anchors": ["ekosis/servers/server_base.py::ServerBase._route_request"]}
{"id": "C35", "title": "Responses carry the request's span key", "statement": "Whenever the request could be parsed, the response, success or error, carries the request's span key, and none otherwise.", "quantifier": "every request text and handler outcome", "why_tests_cant": "Arbitrary inputs.", "anchors": ["ekosis/servers/server_base.py::ServerBase._route_request"]}
{"id": "C36", "title": "Request context never leaks", "statement": "The 'current request' seen by application code during a request is that request, and after the request, however it ended, it is what it was before.", "quantifier": "every request and outcome, every sequence and nesting of requests", "why_tests_cant": "All outcome sequences.", "anchors": ["ekosis/servers/server_base.py::ServerBase._route_request", "ekosis/requests/request_context.py"]}
{"id": "C37", "title": "One response per request line, in order", "statement": "On a stream connection, every newline-terminated request line is answered by exactly one response line, in request order, regardless of how the bytes are split into network chunks.", "quantifier": "every byte stream, every chunking", "why_tests_cant": "All byte strings and all chunkings.", "anchors": ["ekosis/servers/stream_server_base.py::StreamServerBase._handle_request"]}
{"id": "C38", "title": "Heartbeats are answered without reaching application code", "statement": "A heartbeat line (first byte ENQ) is answered with an ACK line and never reaches the router, on every transport that supports heartbeats.", "quantifier": "every byte stream position of heartbeats", "why_tests_cant": "Interleavings with requests.", "anchors": ["ekosis/servers/stream_server_base.py::StreamServerBase._handle_request", "ekosis/servers/json/udp.py"]}
{"id": "C39", "title": "Requests reach the handler registered for their route", "statement": "A request is handled by the one handler registered under its route key; unknown keys give the route-key-unknown status without running any handler or middleware; registering a key twice is refused and leaves the first registration in place.", "quantifier": "every registration history and every request", "why_tests_cant": "All registration orders.", "anchors": ["ekosis/requests/request_router.py::RequestRouter.route_request", "ekosis/requests/request_router.py::RequestRouter.register_handler"]}
{"id": "C40", "title": "Middleware runs in registration order around the handler", "statement": "Every before hook runs once, in registration order, each seeing its predecessor's result; then the handler runs once with the last result; then every after hook runs once in registration order; and nothing later runs after a failure.", "quantifier": "every list of middleware and every request", "why_tests_cant": "Arbitrary chains.", "anchors": ["ekosis/middleware/manager.py::MiddlewareManager", "ekosis/requests/request_router.py::RequestRouter.route_request"]}
{"id": "C41", "title": "Handlers receive just the arguments they declare", "statement": "An endpoint function is called with exactly those of the framework's arguments it declares, with the values of the request being handled.", "quantifier": "every set of declared parameters and every request", "why_tests_cant": "All signatures.", "anchors": ["ekosis/requests/standard_handler.py", "ekosis/requests/buffered_handler.py"]}
{"id": "C42", "title": "Response statuses map to the matching client error", "statement": "For every response status the client raises the error of that status, or returns the data on success; it always ends in a documented client error or the data.", "quantifier": "every status number and every response payload", "why_tests_cant": "All statuses and payload kinds.", "anchors": ["ekosis/clients/client_base.py::ClientBase.generate_response_exception", "ekosis/clients/client_base.py::ClientBase.send_message"]}
{"id": "C43", "title": "Sending makes at most max_retries attempts", "statement": "A client makes at most max_retries attempts, stops at the first success and returns that reply, stops at the first non-retryable failure, and raises 'max retries reached' exactly after max_retries retryable failures.", "quantifier": "every max_retries and every sequence of attempt outcomes, every transport", "why_tests_cant": "All outcome sequences.", "anchors": ["ekosis/clients/stream_client_base.py", "ekosis/clients/persistent_stream_client_base.py", "ekosis/clients/datagram_client_base.py"]}
{"id": "C44", "title": "A reply answers the request it is returned for", "statement": "The reply returned to a caller is the server's reply to that caller's request, never the reply to another request.", "quantifier": "every schedule of delays, time-outs and later requests on one client", "why_tests_cant": "Late replies need particular timing.", "anchors": ["ekosis/clients/persistent_stream_client_base.py", "ekosis/clients/datagram_client_base.py", "ekosis/clients/client_base.py::ClientBase.send_message"]}
{"id": "C45", "title": "Concurrent sends on one client do not disturb each other", "statement": "Two sends running at once on the same client object each return their own reply or raise an error of their own.", "quantifier": "every interleaving of two or more sends", "why_tests_cant": "Needs a particular interleaving of a retry and a success.", "anchors": ["ekosis/clients/persistent_stream_client_base.py", "ekosis/clients/stream_client_base.py"]}
{"id": "C46", "title": "Error counters", "statement": "An error's reported count is the number of times it was raised minus the number cleared, never below zero; clearing never raises a count; ids are case-insensitive; only errors with positive count are listed.", "quantifier": "every history of raise, clear-some and clear-all with any counts", "why_tests_cant": "Unbounded histories and arbitrary integers.", "anchors": ["ekosis/state_keepers/error_state_keeper.py", "ekosis/state_keepers/error_state_list.py"]}
{"id": "C47", "title": "Statistics store behaves like a map of paths", "statement": "Setting a dotted statistic and reading it returns the value; statistics on unrelated paths do not change; increment adds exactly its amount.", "quantifier": "every store content and every pair of paths", "why_tests_cant": "All nested stores and paths.", "anchors": ["ekosis/state_keepers/statistics_keeper.py"]}
{"id": "C48", "title": "No call is lost or counted twice by statistics gathering", "statement": "For every endpoint, the calls reported over all gathered periods plus the current one add up to the calls counted since start, whatever the gathering times.", "quantifier": "every interleaving of calls and gatherings", "why_tests_cant": "Unbounded histories.", "anchors": ["ekosis/state_keepers/statistics_keeper.py::StatisticsKeeper"]}
{"id": "C49", "title": "Statistics history is bounded and newest first", "statement": "The history holds the most recent min(n, history_length) gathered periods, newest first.", "quantifier": "every history length and number of gatherings", "why_tests_cant": "Unbounded histories.", "anchors": ["ekosis/state_keepers/statistics_keeper.py::StatisticsKeeper"]}
{"id": "C50", "title": "Percentiles are sensible", "statement": "p95 <= p99, and both lie between the smallest and largest measured duration; -1 exactly when nothing was measured.", "quantifier": "every multiset of durations", "why_tests_cant": "Arbitrary data sets.", "anchors": ["ekosis/state_keepers/statistics_keeper.py"]}
{"id": "C51", "title": "Configuration precedence", "statement": "An instance-level variable overrides the application-level one, which overrides the machine-level one, which overrides the default; empty values count as unset.", "quantifier": "every environment, application name and instance id", "why_tests_cant": "All environments.", "anchors": ["ekosis/configuration/config_models.py::get_eco_env"]}
{"id": "C52", "title": "Extra configuration precedence", "statement": "Extra settings are visible under their bare name with instance over application over machine precedence, and other applications' settings do not shadow them.", "quantifier": "every environment, application name and instance id", "why_tests_cant": "All environments.", "anchors": ["ekosis/configuration/config_models.py::get_app_instance_extra"]}
{"id": "C53", "title": "At most one running process per application instance", "statement": "At no time do two live processes run the same application instance.", "quantifier": "every interleaving of starts, exits and kills of any number of processes", "why_tests_cant": "The race window between check and create needs a particular schedule.", "anchors": ["ekosis/application_base.py::ApplicationBase.__lock_file_check"]}
{"id": "C54", "title": "Buffered log lines are written once and in order", "statement": "Every log record is written to the file exactly once and in emission order, and after a flush or shut-down none is left in memory; fewer than buffer-size records are ever unwritten.", "quantifier": "every history of emits, flushes and buffer-size changes", "why_tests_cant": "Unbounded histories.", "anchors": ["ekosis/logs/buffered_rotating_file_handler.py"]}
{"id": "C55", "title": "Log lines carry the span key of the request that logged them", "statement": "Each log line written while a request is handled carries that request's trace and span id.", "quantifier": "every interleaving of requests and logging, every buffer size", "why_tests_cant": "Depends on when buffered records are formatted.", "anchors": ["ekosis/logs/otlp_formatter.py", "ekosis/logs/buffered_rotating_file_handler.py"]}
{"id": "C56", "title": "Log shipper delivers each complete line once and in order", "statement": "While the shipper and collector keep running and the file is rotated at most once between polls, every complete line is delivered exactly once and in order, however the writes are split.", "quantifier": "every append/rotate/poll/delivery-failure schedule", "why_tests_cant": "All byte chunkings and schedules.", "anchors": ["ekosis_log_shipper/src/tracked_file.cpp", "ekosis_log_shipper/src/main.cpp"]}
{"id": "C57", "title": "Log shipper restart loses nothing", "statement": "If the shipper dies at any moment and is restarted, every complete line is delivered at least once.", "quantifier": "every crash point and schedule of rotations", "why_tests_cant": "Crash points.", "anchors": ["ekosis_log_shipper/src/tracked_file.cpp", "ekosis_log_shipper/src/main.cpp", "ekosis_log_shipper/src/state_store.cpp"]}
{"id": "C58", "title": "Prometheus export reports every endpoint", "statement": "Every application endpoint's call count in the gathered statistics is exported under its route, framework endpoints are not exported, and undefined percentiles are not exported.", "quantifier": "every statistics tree", "why_tests_cant": "All nested trees.", "anchors": ["ekosis_prometheus/ekosis_prometheus/stats_translator.py"]}
{"id": "C59", "title": "Queue management commands run the requested action", "statement": "The command line tools for buffered endpoints and senders send the one management request that matches the option given.", "quantifier": "every valid option combination", "why_tests_cant": "All option combinations.", "anchors": ["ekosis/cli/bem.py", "ekosis/cli/bsm.py", "ekosis/cli/shared_functions.py"]}
{"id": "C60", "title": "Messages survive the wire", "statement": "A request or response written by one side as a line is read by the other side as an equal message, and the line contains no line feed except its terminator.", "quantifier": "every message, with arbitrary strings and nested data", "why_tests_cant": "All strings and nestings.", "anchors": ["ekosis/clients/client_base.py", "ekosis/servers/stream_server_base.py", "ekosis/data_transfer_objects/json_protocol.py"]}
{"id": "C61", "title": "Datagram requests are answered once, to their sender, in order", "statement": "Every newline-terminated text datagram is handled once, in order of arrival, and its response goes to the address it came from; no response goes anywhere else.", "quantifier": "every sequence of datagrams from any senders and every interleaving with processing", "why_tests_cant": "All interleavings of arrivals and handling.", "anchors": ["ekosis/servers/json/udp.py"]}
{"id": "C62", "title": "Configuration file over environment", "statement": "A setting given in the configuration file is the one the application uses, whatever the environment says; settings the file does not give keep the value from the environment; a file that lists instances but not the running one stops the application.", "quantifier": "every environment and every configuration file", "why_tests_cant": "All combinations of present and absent settings at both places.", "anchors": ["ekosis/configuration/config_models.py", "documentation/configuration/through_configuration_files.md"]}
{"id": "C64", "title": "Application names", "statement": "The application name is the script's base name without its .py extension in lower snake case; different scripts have different names.", "quantifier": "every script path", "why_tests_cant": "All paths.", "anchors": ["ekosis/configuration/config_models.py", "ekosis/util/utility_functions.py::camel_to_snake"]}
{"id": "C65", "title": "Every application instance has its own files", "statement": "Lock files, log files, default socket files and buffer databases of different application instances, and of different routes and queues of one instance, are different files.", "quantifier": "every pair of application instances and routes", "why_tests_cant": "All names.", "anchors": ["ekosis/application_base.py::ApplicationBase.__lock_file_check", "ekosis/logs/logger.py", "ekosis/requests/buffered_handler_base.py", "ekosis/sending/buffered_sender_base.py", "ekosis/queues/pending_queue.py"]}
{"id": "C66", "title": "An instance that is not running can be started", "statement": "If no process runs an application instance, a new process can start it, however the earlier ones ended.", "quantifier": "every history of starts, exits and kills", "why_tests_cant": "Needs a particular crash point or process id.", "anchors": ["ekosis/application_base.py::ApplicationBase.__lock_file_check"]}
{"id": "C63", "title": "Configured log level applies", "statement": "With ECOENV_LOG_LEVEL (or its application and instance level variants, or the configuration file) set to one of the five levels, exactly the records at or above that level are logged from the start; the eco.log.level endpoint changes it from then on.", "quantifier": "every level name, every history of logging calls and level changes", "why_tests_cant": "Needs every history and both handlers; a test sees one sample.", "anchors": ["ekosis/logs/logger.py", "ekosis/standard_endpoints/log_manager.py", "documentation/configuration/through_environment_variables.md"]}
{"id": "C67", "title": "Log rotation keeps the newest lines", "statement": "At every moment the log file and at most max_files rotated files hold the last lines written, in order, youngest file first in numbering; nothing is dropped while fewer rotated files exist; no file exceeds max_size bytes unless it is a single line.", "quantifier": "every history of log calls, every size and number of files", "why_tests_cant": "Unbounded histories and the renaming loop.", "anchors": ["ekosis/logs/buffered_rotating_file_handler.py", "ekosis/logs/logger.py", "documentation/configuration/through_environment_variables.md"]}
{"id": "C68", "title": "Discovery finds the services of this machine", "statement": "The Prometheus exporter's discovery finds every application instance that is configured to listen on this machine, under its own name and instance, with the protocol and address it listens on, and nothing else.", "quantifier": "every environment, application name and instance id", "why_tests_cant": "All environments and names.", "anchors": ["ekosis_prometheus/ekosis_prometheus/service_discovery.py::discover_local_services"]}
{"id": "C69", "title": "Service health tells the truth", "statement": "After a round of polling, the health exported for every discovered service is 1 if it answered and 0 if it did not, and no other service has a health.", "quantifier": "every list of services and every combination of answers and failures", "why_tests_cant": "All combinations and orders of answers.", "anchors": ["ekosis_prometheus/ekosis_prometheus/scraper.py"]}
{"id": "C70", "title": "The statistics tool shows what was asked for", "statement": "The statistics tool asks the server addressed; it shows the statistics of the current period, the newest gathered period, or the whole gathered history, whichever was asked for (the current one by default), and asking changes nothing that was gathered.", "quantifier": "every history of statistics events, every option, every address", "why_tests_cant": "All histories of gathering and reading.", "anchors": ["ekosis/cli/stat.py", "ekosis/cli/senders/statistics.py", "ekosis/standard_endpoints/statistics.py", "ekosis/state_keepers/statistics_keeper.py"]}
{"id": "C71", "title": "Every request is traced once", "statement": "With tracing installed every request gives exactly one finished span, named after its route, in the caller's trace and a child of the caller's span; open spans are exactly the requests in progress; no span is finished twice.", "quantifier": "every interleaving of any number of requests, successful or not, with any span keys, and restarts", "why_tests_cant": "Quantifies over interleavings of requests that share a dictionary.", "anchors": ["ekosis_otlp_traces/ekosis_otlp_traces/middleware.py", "ekosis_otlp_traces/documentation/README.md", "ekosis/requests/request_router.py::RequestRouter.route_request"]}
{"id": "C72", "title": "Every processing attempt is traced under the request that queued it", "statement": "Every attempt to process a buffered request gives exactly one finished span that says whether it succeeded and which retry it was, in the caller's trace and a child of the span of the request that queued it, through retries and restarts; work queued while tracing was not installed is a child of the span in its span key.", "quantifier": "every interleaving of requests, pushes, attempts of any number of workers, failures and restarts", "why_tests_cant": "Quantifies over interleavings of workers that share a dictionary, and over restarts.", "anchors": ["ekosis_otlp_traces/ekosis_otlp_traces/buffered_middleware.py", "ekosis_otlp_traces/ekosis_otlp_traces/middleware.py", "ekosis_otlp_traces/documentation/README.md", "ekosis/requests/buffered_handler_base.py"]}
{"id": "C73", "title": "Log records reach the collector as they were logged", "statement": "The batch the log shipper posts for lines written by an application holds one record per line, in order, with the message, severity, source location, time to the microsecond, and trace and span id of the log call, under the application's name and instance.", "quantifier": "every batch of log calls: any messages, levels, times, span keys, application names", "why_tests_cant": "All texts and instants; dates go through a calendar conversion on each side.", "anchors": ["ekosis_log_shipper/src/otlp_envelope.cpp", "ekosis/logs/otlp_formatter.py", "ekosis/data_transfer_objects/otlp_log_record.py", "ekosis_log_shipper/README.md"]}
{"id": "C74", "title": "Everything queued is saved when the application ends", "statement": "Once the application's context ends, for whatever reason (an exception, a termination signal, a normal end), every queue that was opened has been saved exactly once, so that reopening it finds what it held, and the log has been flushed.", "quantifier": "every set of buffered endpoints and senders, every body of the context, every failure to start, every moment at which signals arrive", "why_tests_cant": "Quantifies over the moments of signals and failures during start and shutdown.", "anchors": ["ekosis/application_base.py::ApplicationBase.__do_shutdown", "ekosis/application_base.py::ApplicationBase.__start", "ekosis/requests/buffered_handler_base.py::BufferedRequestHandlerBase.shut_down", "ekosis/sending/buffered_sender_base.py", "ekosis/servers/json/tcp.py", "documentation/buffereds/technical_stuff.md"]}
{"id": "C75", "title": "A termination signal ends the application", "statement": "SIGTERM, SIGINT or SIGHUP ends a running application, whatever it is doing, and costs no message; stop() ends it too.", "quantifier": "every moment at which a signal arrives, all application code", "why_tests_cant": "The signal has to hit particular Python code.", "anchors": ["ekosis/application_base.py::ApplicationBase.__handle_exit_signal", "ekosis/application_base.py::ApplicationBase.stop", "ekosis/servers/server_base.py::ServerBase._route_request", "ekosis/sending/buffered_sender_base.py", "documentation/buffereds/technical_stuff.md"]}
{"id": "C76", "title": "A message sent between two applications arrives", "statement": "A message taken by a buffered sender whose client addresses a buffered endpoint is at every later moment pending, being sent or failed at the sender, removed by an operator, or was accepted by the endpoint with the same span key and payload; a message the sender counts as sent was accepted by the endpoint.", "quantifier": "every interleaving of the two applications and the network: delays, time-outs, broken connections, lost datagrams, pauses on either side, other clients of the endpoint", "why_tests_cant": "A misread reply needs a particular timing between two processes.", "anchors": ["ekosis/sending/buffered_sender_base.py::BufferedSenderBase.__do_queue_processing", "ekosis/requests/buffered_handler_base.py::BufferedRequestHandlerBase.run", "ekosis/clients/client_base.py::ClientBase.send_message", "ekosis/clients/persistent_stream_client_base.py", "ekosis/clients/datagram_client_base.py", "ekosis/clients/stream_client_base.py"]}
{"id": "C77", "title": "A message sent between two applications is processed once", "statement": "A message sent once through a buffered sender is accepted and processed successfully by the buffered endpoint at most once.", "quantifier": "every interleaving of the two applications and the network", "why_tests_cant": "Duplicates need an answer lost or late at a particular moment.", "anchors": ["ekosis/sending/buffered_sender_base.py::BufferedSenderBase.__do_queue_processing", "ekosis/requests/buffered_handler_base.py::BufferedRequestHandlerBase.run", "ekosis/clients/client_base.py::ClientBase.send_message"]}
{"id": "C78", "title": "Everything done for a request carries its span key", "statement": "What is done for a request, in its own task, in tasks and calls it left for later, or by the worker that processes its queued message, sees that request's span key as the current one, however many requests are handled at the same time; log lines are attributed accordingly, each once.", "quantifier": "every interleaving of tasks; any nesting of requests, fire-and-forget tasks, run_soon calls, buffered messages and exceptions", "why_tests_cant": "Wrong attribution depends on which request started a worker and on the interleaving of tasks.", "anchors": ["ekosis/requests/request_context.py", "ekosis/servers/server_base.py::ServerBase._route_request", "ekosis/requests/buffered_handler_base.py::BufferedRequestHandlerBase.__do_queue_processing", "ekosis/sending/buffered_sender_base.py::BufferedSenderBase.__do_queue_processing", "ekosis/util/fire_and_forget_tasks.py", "ekosis/logs/otlp_formatter.py"]}
{"id": "C79", "title": "Work left for later is done once and in order", "statement": "Functions called through run_soon begin in the order of the calls, each exactly once; their tasks and those of fire_and_forget_task are referred to until they are over and not longer.", "quantifier": "every interleaving of tasks", "why_tests_cant": "Garbage collection and interleavings; unbounded histories.", "anchors": ["ekosis/util/fire_and_forget_tasks.py"]}
{"id": "C80", "title": "The span key of a request goes through the whole chain of communications", "statement": "When endpoints pass their span_key on to the senders they call, as documented, every request and message that comes about because of a request, over any number of applications, carries that request's span key; and every message so sent is sent.", "quantifier": "every set of applications, every behaviour of their endpoints, every chain of requests of any length", "why_tests_cant": "Chains of any length through ordinary and buffered senders and endpoints.", "anchors": ["ekosis/sending/sender.py", "ekosis/sending/buffered_sender.py", "ekosis/clients/client_base.py::ClientBase.send_message", "ekosis/sending/buffered_sender_base.py::BufferedSenderBase.enqueue", "documentation/examples/fun_factory/router_code.md"]}
{"id": "C81", "title": "What is declared is opened", "statement": "After the application started, every buffered endpoint and buffered sender whose decorator did not raise has been set up exactly once, so that messages can be pushed through it, and the management commands for its route act on it; declaring two endpoints for one route raises; all decorators share their tables.", "quantifier": "every sequence of declarations, with any routes, before and after the start", "why_tests_cant": "All sequences of declarations, and combinations of routes.", "anchors": ["ekosis/requests/buffered_endpoint.py", "ekosis/requests/endpoint.py", "ekosis/sending/buffered_sender.py", "ekosis/state_keepers/buffered_sender_keeper.py", "ekosis/state_keepers/buffered_handler_keeper.py", "ekosis/requests/request_router.py::RequestRouter.register_handler", "ekosis/application_base.py", "ekosis/util/singleton.py"]}
{"id": "C82", "title": "Work is brought to an end", "statement": "Left alone, an unpaused buffered endpoint or sender finishes: after a bounded number of steps nothing is pending or being handled, and every message it knows was handled, is in the error queue, or was removed by an operator.", "quantifier": "every reachable state, every choice of which worker event happens next and how attempts end", "why_tests_cant": "Quantifies over all schedules; a livelock or a stuck worker needs a particular one.", "anchors": ["ekosis/requests/buffered_handler_base.py::BufferedRequestHandlerBase.__do_queue_processing", "ekosis/sending/buffered_sender_base.py::BufferedSenderBase.__do_queue_processing"]}
{"id": "C83", "title": "Buffered middleware gets back what it handed over", "statement": "What the middlewares return from before_push, merged in registration order with the last one winning, is what before_process and after_process are given at every attempt, retry and reprocess, with the payload that was received; in every attempt the hooks run once each in registration order around the handler, after_process with its verdict, whether processing succeeded or failed; a before_push that raises refuses the request.", "quantifier": "every list of middlewares and everything they do, every payload, every sequence of attempts and reprocesses", "why_tests_cant": "All behaviours of application code over lives of any length, and all kinds of metadata values.", "anchors": ["ekosis/middleware/buffered_middleware_manager.py", "ekosis/requests/buffered_handler_base.py::BufferedRequestHandlerBase.__do_queue_processing", "ekosis/requests/buffered_handler_base.py::BufferedRequestHandlerBase.run", "ekosis/queues/pending_queue.py", "documentation/middleware.md"]}
{"id": "C84", "title": "The logging tool does what was asked", "statement": "The logging tool asks the server addressed for the level and the buffer size typed; from then on exactly the records at or above that level are logged, no more records wait in memory than the buffer size allows, and the answer says what is in force; anything that is not one of the five levels or not a number changes nothing.", "quantifier": "every history of the log before and after, every combination of options and addresses", "why_tests_cant": "Needs every history of log calls and the order in which the two settings are applied.", "anchors": ["ekosis/cli/log.py", "ekosis/cli/senders/log.py", "ekosis/standard_endpoints/log_manager.py", "ekosis/data_transfer_objects/log_management.py", "ekosis/logs/logger.py"]}
{"id": "C85", "title": "Flattened statistics keep every statistic under its own key", "statement": "Flattening a part of the statistics, as the telemetry does, gives exactly the statistics recorded in that part, each under the dotted key it was recorded at: none is lost, none is renamed, and no two run into one another.", "quantifier": "every history of registering, calling, setting, incrementing, reading and gathering, every part of the statistics, every route and key; for flattening alone every nested dictionary", "why_tests_cant": "Needs all histories and all shapes of nested dictionaries, with every choice of keys.", "anchors": ["ekosis/util/utility_functions.py", "ekosis/state_keepers/statistics_keeper.py", "examples/telemetry/telemetry_example.py"]}
{"id": "C86", "title": "Addresses given as text are read exactly when they are addresses", "statement": "A text is taken for an IPv4 address exactly if it is one; for a host name exactly if it is one by the IETF's rules; and host and port are read from a text exactly if it is a host name or IPv4 address, a colon and a port number, giving back that host and that port. Everything else is refused with a message.", "quantifier": "every text, whatever Python makes of characters beyond ASCII", "why_tests_cant": "The texts are unboundedly many; tests try a handful.", "anchors": ["ekosis/util/utility_functions.py", "examples/telemetry/telemetry_example.py"]}
{"id": "C87", "title": "The command-line help shows its texts completely", "statement": "The help of the command-line tools shows every word of its texts, in order and nothing else; line breaks and empty lines stay where they were; lines fit into the width unless a single word does not, and no further empty lines appear.", "quantifier": "every text, every width and indent, whatever counts as white space", "why_tests_cant": "Texts, widths and their combinations are unboundedly many.", "anchors": ["ekosis/cli/argparse_formatter.py"]}
{"id": "C88", "title": "What the queue and statistics tools print can be read back without loss", "statement": "The screen after a command of the queue tools shows, as JSON that reads back exactly, the state of the queue after the command, the keys of failed requests, or the request asked for; two answers that look the same on the screen are the same (but for request data that count as nothing), whatever characters route keys and data contain; messages of different outcomes and of different commands differ. The statistics and logging tools print JSON in printable ASCII that reads back.", "quantifier": "every answer, every JSON value (also NaN and the infinities), every message and route key, every command and reachable state", "why_tests_cant": "Values, texts and states are unboundedly many; the screen is only ever compared for a few examples.", "anchors": ["ekosis/cli/senders/queue_management_sender_base.py", "ekosis/cli/senders/statistics.py", "ekosis/standard_endpoints/buffered_handler_manager.py", "ekosis/standard_endpoints/buffered_sender_manager.py", "ekosis/data_transfer_objects/queue_management.py"]}
{"id": "C89", "title": "The telemetry example writes every statistic of an application once, under its own route", "statement": "For the statistics of an application the telemetry example writes exactly one data point for every number recorded for an endpoint of the application and for every size of its buffered endpoints and senders, with the application's name and instance, the host, the time of the report, and the route it belongs to; nothing for the framework's own endpoints; the gathered report where there is one, otherwise the current one.", "quantifier": "every history of registering, calling, reading and gathering, every set of routes, every report", "why_tests_cant": "Needs all routes, also those that contain names of statistics, and all histories.", "anchors": ["examples/telemetry/telemetry_example.py", "ekosis/util/utility_functions.py::flatten_dictionary", "ekosis/state_keepers/statistics_keeper.py"]}
{"id": "C90", "title": "The telemetry example asks the server it was given", "statement": "Given a kind of server and an address, the telemetry example asks that server and no other, and names the machine it runs on; an address that is none, or a socket file that does not exist, is refused.", "quantifier": "every address, every set of existing files, whatever Python makes of characters beyond ASCII", "why_tests_cant": "All texts and file systems.", "anchors": ["examples/telemetry/telemetry_example.py", "ekosis/util/utility_functions.py"]}
{"id": "C91", "title": "URLs given as text are recognised", "statement": "A text is taken for a URL exactly if it is a scheme, ://, an authority and, possibly, a path, query or fragment; no text makes the check raise.", "quantifier": "every text, whatever the libraries say of hosts in brackets and of characters beyond ASCII", "why_tests_cant": "The texts are unboundedly many; tests try a handful.", "anchors": ["ekosis/util/utility_functions.py::is_valid_url"]}
{"id": "C92", "title": "The tracker of the example applications keeps one record for every request", "statement": "Whatever requests and responses are logged, in whatever order and however often: the tracker's table has exactly one record for every span key heard of, holding the last request and the last response logged under it with their times, numbered in the order in which they were first heard of; no call fails. Orders and repetitions that buffering may produce leave the same records.", "quantifier": "every sequence of logged requests and responses with span keys that have bytes", "why_tests_cant": "Every interleaving and repetition of deliveries.", "anchors": ["examples/fun_factory/tracker/database.py", "examples/fun_factory/tracker/endpoints.py", "examples/proper_fun/tracker", "examples/observable_fun/tracker"]}
{"id": "C93", "title": "The router of the example applications asks the service the request names", "statement": "A request whose first word is fortune, joke, lotto or time, in any case, is answered by that service alone, any other by a prediction about the whole request; lotto asks for as many sets of numbers as its second word says, for one if that is no number; the request is logged before, and the answer after, exactly if there is one.", "quantifier": "every request, every behaviour of the services, whatever Python makes of characters beyond ASCII", "why_tests_cant": "All requests, all failures of the services.", "anchors": ["examples/fun_factory/router/endpoints.py", "examples/proper_fun/router", "examples/observable_fun/router"]}
{"id": "C94", "title": "The lottery and the dice of the examples are fair in what is possible", "statement": "Every line of the lottery has six different numbers from 1 to 51 in order and a different bonus number, and every such line is possible; there are as many lines as asked for. A die with n sides shows a number from 1 to n, and each of them is possible.", "quantifier": "every outcome of chance, every number of sides, every number of lines", "why_tests_cant": "Chance: tests see a few outcomes.", "anchors": ["examples/fun_factory/lottery/endpoints.py", "examples/dice_roller/handlers/roll.py", "examples/dice_roller/handlers/roll_times.py"]}
{"id": "C95", "title": "A buffered sender's wait period limits the rate of sending", "statement": "With a wait period, two messages are never sent closer together than that, nor before the previous call has ended, however the messages arrive, fail and are retried; n messages need at least n-1 wait periods; nobody waits longer than asked for, and without a wait period messages are sent as soon as they are taken. Waiting changes nothing else.", "quantifier": "every wait period, every interleaving of events and of the passing of time, every outcome of sending, every retry policy of the client", "why_tests_cant": "Time and interleavings: a test sees a few sleeps.", "anchors": ["ekosis/sending/buffered_sender_base.py: __do_queue_processing", "ekosis/clients: _send_message_retry_loop", "documentation/buffereds/technical_stuff.md: wait_period", "documentation/buffereds/buffered_senders.md: rate limiting"]}
{"id": "C96", "title": "A persistent client keeps to one connection", "statement": "The connection is made with the first message and kept; at no time is more than one open; as long as nobody closes it and everything is answered, every message is written exactly once, to that connection, whatever number of tasks send at the same time; no message is ever written more often than there are attempts.", "quantifier": "every interleaving of any number of sending tasks and the heartbeat task, every outcome of connecting and reading, cancellations, both behaviours of Python when a writer is dropped", "why_tests_cant": "Interleavings at suspension points that mocks do not have.", "anchors": ["ekosis/clients/persistent_stream_client_base.py: __check_connected, __do_write, __do_read, __do_heartbeat, _send_message, _send_message_retry_loop", "documentation/transient_vs_persistant_connections.md: Persisted clients"]}
{"id": "C97", "title": "A persistent client regains its connection on a regular basis", "statement": "While the client is in use it sends no heartbeats. If the server closes the connection, the client notices and tries to connect again once in every heartbeat period until it succeeds, although nobody sends anything; the attempts do not end by themselves.", "quantifier": "every reachable state, every number of refusals, every heartbeat period", "why_tests_cant": "Time, and failures between two heartbeats.", "anchors": ["ekosis/clients/persistent_stream_client_base.py: __do_heartbeat, __heartbeat_check, __check_heartbeat_task", "documentation/transient_vs_persistant_connections.md: Persisted clients", "documentation/todo.md 136-137"]}
{"id": "C98", "title": "A transient client's connection carries one message and is closed with its response", "statement": "Every connection of a transient client carries the message it was opened for, once, and nothing else; it is closed the moment the response has been received; a message whose response was received is not sent again; a call opens at most max_retries connections, and leaves none open when it has ended.", "quantifier": "any number of calls at once on one client, every outcome of connecting, reading and closing, every max_retries", "why_tests_cant": "Failures at every suspension point, and connections that mocks do not have.", "anchors": ["ekosis/clients/stream_client_base.py: _send_message, _send_message_retry_loop", "ekosis/clients/client_base.py: send_message", "documentation/transient_vs_persistant_connections.md"]}
{"id": "C99", "title": "A datagram client keeps to one socket", "statement": "A datagram client opens one socket, with its first message, and uses it for all messages from then on, whatever number of tasks send at the same time; replies are returned to the call whose request they answer.", "quantifier": "any number of calls at once on one client, every outcome of opening, every loss and reordering of datagrams, every time-out", "why_tests_cant": "Interleavings of first messages at a suspension point.", "anchors": ["ekosis/clients/datagram_client_base.py: DatagramProtocolClient, DatagramClientBase"]}
{"id": "C100", "title": "The statistics count exactly the requests answered with success", "statement": "Whatever texts arrive at a server, and whenever statistics are gathered in between: for every endpoint, the call counts of all gathered periods and of the current one add up to the number of requests for it that were answered with status 0. Texts that are no requests, requests for unknown routes and requests whose handling failed are counted nowhere.", "quantifier": "every server, every sequence of texts, every sequence of gatherings", "why_tests_cant": "A total over unbounded sessions, across two components.", "anchors": ["ekosis/servers/server_base.py: _route_request", "ekosis/state_keepers/statistics_keeper.py: StatisticsKeeper.add_endpoint_stats", "documentation/statistics_keeper.md"]}
{"id": "C101", "title": "Messages may be written by any program that writes JSON", "statement": "Any JSON text (RFC 8259) of an object with the members route_key, span_key and data is understood by a server as that request, and has the effect of the line the package's own client would write: with blanks anywhere, characters spelled in any way, hexadecimal digits of either case, the span identifier as digits or as a number, members in any order and others among them.", "quantifier": "all values, all texts of them, all servers", "why_tests_cant": "The texts of one value are infinitely many; tests see those of one writer.", "anchors": ["ekosis/servers/server_base.py: _route_request", "ekosis/data_transfer_objects/json_protocol.py: RequestDTO", "ekosis/data_transfer_objects/span_id.py: SpanId, SpanKey", "documentation/the_protocol.md"]}
{"id": "C102", "title": "Tasks that setup_tasks creates live with the application", "statement": "Tasks created by an application's setup_tasks begin to run in the order of their creation, and before the first request reaches any endpoint; if one of those put into the list raises, the application ends with an exception, promptly; one that returns changes nothing; when the application ends, those still running are cancelled.", "quantifier": "every number of buffered components, every code of setup_tasks, every behaviour of all tasks, every sequence of events", "why_tests_cant": "Depends on the order in which the event loop runs what is ready, and on what happens in between.", "anchors": ["ekosis/application_base.py: __start, setup_tasks, start", "documentation/setup_tasks.md", "asyncio: BaseEventLoop._run_once, gather"]}
{"id": "C103", "title": "A command line means what it says, and nothing else is accepted", "statement": "An application and the command line tools accept exactly the options they document: options can be written in any order, a value behind the option or with an equals sign, the last one counts; two actions are refused, so is anything unknown, a missing value or a missing required option, with exit status 2 and before anything is done; whoever asks for help starts nothing. What the tool then does is what the options say.", "quantifier": "every parser of the kind used, every command line", "why_tests_cant": "The number of command lines is infinite, and argparse has rules of its own (abbreviations, values that look like options, one-letter names with a value right behind them).", "anchors": ["ekosis/configuration/argument_parser.py", "ekosis/cli/shared_argument_parser.py", "ekosis/cli/shared_queue_argument_parser.py", "ekosis/cli/bem.py", "ekosis/cli/bsm.py", "ekosis/cli/stat.py", "ekosis/cli/log.py", "documentation/command_line_tool.md"]}
{"id": "C104", "title": "A queue keeps at most two pages in memory, the rest in its file", "statement": "However many messages a buffered queue holds, at most two pages of them are in memory and all others are in its file. The file is written only when a message is pushed while the back page is full, and read only when the front page is empty. A queue that never holds more than a page writes nothing until shut down. After filling a queue with n pages, front and back page are full and n - 2 pages are in the file.", "quantifier": "every page size above zero, every sequence of calls, every file left behind", "why_tests_cant": "Memory use depends on the whole history of pushes, pops, removals by key and restarts.", "anchors": ["ekosis/queues/paginated_queue.py", "documentation/buffereds/technical_stuff.md: page_size", "documentation/buffereds/understanding_queues.md"]}
{"id": "C105", "title": "Buffers have no default place", "statement": "An application with buffered endpoints or senders, for which no level sets a directory for buffers, does not start: no database is opened, no server is started, the process ends with an exception. The same if the directory does not exist. With a directory that exists it starts, and all its databases are in that directory under the documented names. An application without buffers needs no directory.", "quantifier": "every environment, every application and instance name without slashes, every list of buffered components, every body of the context, every signal", "why_tests_cant": "Whether an application starts depends on the environment, on the file system and on the order of setup together.", "anchors": ["ekosis/application_base.py:186-204", "ekosis/queues/pending_queue.py:29-36", "ekosis/configuration/config_models.py", "documentation/buffereds/questions_and_answers.md:15-19"]}
{"id": "C106", "title": "Exit status 0 means that all queues have been saved", "statement": "If the process of an application ends with exit status 0, the queues of all its buffered endpoints and senders have been saved, once each, and the log has been flushed last. An application that could not be set up ends with exit status 1.", "quantifier": "every body of the context, every number of components, every time of a signal, every failure", "why_tests_cant": "Needs all combinations of failures and of signals at every point of start and shutdown.", "anchors": ["ekosis/application_base.py:150-260"]}
{"id": "C107", "title": "A response too long for the client fails its own request only", "statement": "Every request on a stream connection gets its own response, byte for byte, however the bytes arrive; a request whose response is longer than the client can take fails, and the other requests of the connection still get their own responses.", "quantifier": "every sequence of responses, every length, every way the bytes arrive in pieces", "why_tests_cant": "Depends on how the network cuts the bytes into pieces, and on responses beyond 64 KiB.", "anchors": ["ekosis/clients/persistent_stream_client_base.py:60-119", "ekosis/clients/stream_client_base.py:34-45", "asyncio/streams.py StreamReader.readline"]}
{"id": "C108", "title": "Statistics are gathered once per gather period, and the application runs in between", "statement": "An application gathers its statistics again and again, a gather period after the last time, never earlier, and later only by what its sleeps took too long. Whatever gather period is configured, the loop lets the rest of the application run.", "quantifier": "every gather period, every delay of every sleep, any number of rounds", "why_tests_cant": "Unbounded running time; periods that no test waits for; values of the configuration nobody tries.", "anchors": ["ekosis/state_keepers/statistics_keeper.py:152-166", "ekosis/application_base.py:231-233,279-302", "ekosis/configuration/config_models.py:70-72", "documentation/statistics_keeper.md"]}
{"id": "C109", "title": "A request whose endpoint takes its time holds up nobody else", "statement": "While the endpoint of one request takes its time, the requests of other clients are answered; an endpoint that asks another endpoint of its own application gets its answer.", "quantifier": "every number of clients and requests, every order of arrivals and ends of endpoints, any time an endpoint takes", "why_tests_cant": "Interleavings of many clients; an endpoint that never ends within a test.", "anchors": ["ekosis/servers/stream_server_base.py:22-46", "ekosis/servers/json/udp.py:17-40", "documentation/the_protocol.md"]}
{"id": "C110", "title": "A message too long for a datagram is an error of its own, found at once", "statement": "A request and a response that fit in a datagram are sent once each. One that does not fit fails with an error that tells so, without waiting, and the endpoint runs at most once for a request.", "quantifier": "every request and response, every max_retries of clients and senders, every state of the application", "why_tests_cant": "Messages at and beyond the limit of the network; endpoints with effects that are called again.", "anchors": ["ekosis/clients/datagram_client_base.py:14-86", "ekosis/servers/json/udp.py:28-40", "ekosis/sending/buffered_sender_base.py:85-104"]}
{"id": "C111", "title": "An address belongs to one application at a time", "statement": "The application that an address (TCP port, UDP port, socket file) leads to keeps it until it stops, whatever other applications try; one that starts on the address of another is refused. What a stopped or killed application leaves behind keeps nobody from starting.", "quantifier": "every number of applications, every sequence of starts and stops, every address", "why_tests_cant": "Needs several applications on one machine and arbitrary interleavings of their starts and stops; a test starts one application in a clean directory.", "anchors": ["ekosis/servers/json/uds.py", "ekosis/servers/json/tcp.py", "ekosis/servers/json/udp.py"]}
{"id": "C112", "title": "A server that cannot listen says why", "statement": "A server whose address is taken or refused by the system ends with the error of the system. It listens in all other cases, and then what is sent to the address reaches it.", "quantifier": "every state of the machine, every address, every kind of server", "why_tests_cant": "The failing branch runs only when the system refuses an address, for reasons that differ from machine to machine; tests run on free addresses.", "anchors": ["ekosis/servers/json/tcp.py", "ekosis/servers/json/uds.py", "ekosis/servers/json/udp.py", "ekosis/servers/stream_server_base.py"]}
{"id": "C113", "title": "A stream server acts on complete request lines only", "statement": "Whatever bytes a peer sends, in whatever pieces, and however the connection ends: the application acts on the first complete lines of what arrived, in order, each at most once, all but the last of them answered. It acts on no line longer than the limit of the reader, on no part of one, and on nothing that follows one.", "quantifier": "every byte stream, every way of cutting it into pieces, every interleaving of arrival and processing, resets included", "why_tests_cant": "What follows a long line could be taken for a request depending on where the network cuts the stream; tests send few short lines.", "anchors": ["ekosis/servers/stream_server_base.py", "ekosis/servers/server_base.py"]}
{"id": "C114", "title": "Log lines that the collector refuses hold up nothing else", "statement": "What becomes of the lines of one log file does not depend on other log files and on what the collector says to them. The lines that the collector took are the first ones of those written, each once, across outages and restarts; once it takes everything, two passes deliver all that was written. Lines that it can take are delivered in the end even if it refuses a batch.", "quantifier": "every number of log files, every sequence of writes, passes and restarts, every collector, whatever it answers to which batch", "why_tests_cant": "Needs a collector that refuses some requests and not others over a long run with many files; tests use one file and a collector that is up or down.", "anchors": ["ekosis_log_shipper/src/main.cpp", "ekosis_log_shipper/src/http_sender.cpp", "ekosis_log_shipper/src/tracked_file.cpp", "ekosis_log_shipper/src/state_store.cpp"]}
{"id": "C115", "title": "A request too long for a stream server is an error of its own, found at once", "statement": "A request line longer than a TCP or UDS server reads (65536 bytes) is not seen by the application, whatever part of it has arrived; the requests before it on the connection are served as ever. Its sender gets an error, never a response. The request is sent once only, since it cannot fare better, and buffered senders do not try again.", "quantifier": "every server and application state, every over-long request, every way its bytes arrive and the connection ends, every number of retries", "why_tests_cant": "Whether the end of the connection shows as an end of file or as a reset depends on how much had arrived when the server gave up; a test sees one of these, for one length.", "anchors": ["ekosis/clients/stream_client_base.py", "ekosis/clients/persistent_stream_client_base.py", "ekosis/servers/stream_server_base.py", "ekosis/sending/buffered_sender_base.py"]}
{"id": "C116", "title": "The exported health of services is current", "statement": "Every push of the Prometheus exporter reports on every service once, with the result of a poll made no earlier than one round of polls before. Pushes keep coming whatever services and gateway do. A service that goes down or comes back, and stays so, is reported so within a bounded time, and by every push after a round of polls. There is a push per gather period, whatever the other services do.", "quantifier": "every number of services, every behaviour of services and gateway over time, every duration of polls, pushes and sleeps within bounds, every number of rounds", "why_tests_cant": "The delay until a failure shows adds up over all services and depends on when in the round it happens; tests poll a few services that answer at once.", "anchors": ["ekosis_prometheus/ekosis_prometheus/scraper.py", "ekosis_prometheus/ekosis_prometheus/application.py"]}
{"id": "C117", "title": "A send ends in time", "statement": "Whatever the server does, send_message of a UDP client, a persistent client whose connection is up, or a transient client returns or raises within max_retries times timeout and the delays between the attempts, also when other sends go through the same client; it never comes to a standstill.", "quantifier": "every timeout, delay and number of retries, every number of sends at the same time, every time at which replies come or do not come, every lateness of the event loop within a bound", "why_tests_cant": "Sends through one client wait for each other on a lock; how long depends on how many there are and in which order time-outs, replies and sleeps follow each other.", "anchors": ["ekosis/clients/datagram_client_base.py", "ekosis/clients/persistent_stream_client_base.py", "ekosis/clients/stream_client_base.py"]}
