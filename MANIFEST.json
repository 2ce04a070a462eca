{
 "claims": [
  {
   "property": "C01",
   "status": "partial",
   "theorems": [
    "Verif.Props.Buf.C01_fields_read_back_partial",
    "Verif.Props.Buf.C01_exactly_full_always_fails",
    "Verif.Props.Buf.C01_fields_read_back_fails"
   ],
   "note": "Holds for every list of fields unless the last read ends exactly at the capacity; that case always fails (proved as a negation)."
  },
  {
   "property": "C02",
   "status": "proved",
   "theorems": [
    "Verif.Props.Buf.C02_writes_append_within_allocation"
   ],
   "note": ""
  },
  {
   "property": "C03",
   "status": "partial",
   "theorems": [
    "Verif.Props.C03_encode_decode_partial",
    "Verif.Props.C03_exactly_full_always_fails",
    "Verif.Props.C03_exact_fill_fails",
    "Verif.Props.C03_long_payload_fails"
   ],
   "note": "Guards: text, bytes and date-time payload below 65536 bytes, no exact fill of the buffer. Both excluded cases are proved to fail."
  },
  {
   "property": "C04",
   "status": "partial",
   "theorems": [
    "Verif.Props.C04_decode_hostile_partial",
    "Verif.Props.C04_decode_hostile_fails"
   ],
   "note": "All types but text without a terminating NUL, which is proved to read out of bounds."
  },
  {
   "property": "C05",
   "status": "partial",
   "theorems": [
    "Verif.Props.C05_filter_store_partial",
    "Verif.Props.C05_filter_store_in_context",
    "Verif.Props.C05_not_fails",
    "Verif.Props.C05_exact_fill_fails"
   ],
   "note": "Filters without NOT and without exact fill; NOT filters and exact fill are proved to fail."
  },
  {
   "property": "C06",
   "status": "proved",
   "theorems": [
    "Verif.Props.C06_filter_wire_round_trip",
    "Verif.Props.C06_expressions_sendable"
   ],
   "note": "Every filter built from sendable values (text and bytes not NULL, operators within 32 bits, no operand hidden below NOT)."
  },
  {
   "property": "C07",
   "status": "proved",
   "theorems": [
    "Verif.Props.C07_filter_meaning",
    "Verif.Props.C07_integer_relations"
   ],
   "note": ""
  },
  {
   "property": "C08",
   "status": "partial",
   "theorems": [
    "Verif.Props.C08_total_preorder_partial",
    "Verif.Props.C08_numeric_order",
    "Verif.Props.C08_small_integers_exact",
    "Verif.Props.C08_text_equal_iff",
    "Verif.Props.C08_datetime_fails",
    "Verif.Props.C08_large_integers_fails",
    "Verif.Props.C08_nan_fails",
    "Verif.Props.C08_bytes_overrun_fails"
   ],
   "note": "Order laws on ordinary values; date-time, integers above 2^53, NaN and byte strings of different length are proved to break them."
  },
  {
   "property": "C09",
   "status": "partial",
   "theorems": [
    "Verif.Props.C09_value_round_trip_partial",
    "Verif.Props.C09_object_round_trip_partial",
    "Verif.Props.C09_property_list_round_trip_partial",
    "Verif.Props.C09_null_object_fails",
    "Verif.Props.C09_null_text_fails"
   ],
   "note": "All nested values, property lists and objects of sendable leaves. NULL text, NULL bytes and a NULL object inside a value are excluded and proved to fail."
  },
  {
   "property": "C10",
   "status": "proved",
   "theorems": [
    "Verif.Props.C10_event_round_trip"
   ],
   "note": ""
  },
  {
   "property": "C100",
   "status": "partial",
   "theorems": [
    "Verif.Props.C100_log",
    "Verif.Props.C100_environment",
    "Verif.Props.C100_names",
    "Verif.Props.C100_line",
    "Verif.Props.C100_whole",
    "Verif.Props.C100_marked_partial",
    "Verif.Props.C100_bound",
    "Verif.Props.C100_marked_fails",
    "Verif.Props.C100_place_fails",
    "Verif.Props.C100_back_fails"
   ],
   "note": "Proved for all histories: where a message goes (C100_log), the first level (C100_environment), names of levels (C100_names), the form of lines (C100_line), whole texts up to 1022 bytes (C100_whole), marked cuts from 1024 bytes on (C100_marked_partial), and that the buffer is kept to (C100_bound). Refuted: a text of 1023 bytes loses its last byte unmarked (C100_marked_fails); handlers are never told file and line (C100_place_fails); a handler cannot be taken back, and levels mean nothing once there is one (C100_back_fails). As built without the RDK logger."
  },
  {
   "property": "C101",
   "status": "partial",
   "theorems": [
    "Verif.Props.C101_names",
    "Verif.Props.C101_row_names",
    "Verif.Props.C101_value",
    "Verif.Props.C101_branch",
    "Verif.Props.C101_wildcard_partial",
    "Verif.Props.C101_count",
    "Verif.Props.C101_alive",
    "Verif.Props.C101_wildcard_fails",
    "Verif.Props.C101_late_fails",
    "Verif.Props.C101_name_fails"
   ],
   "note": "Proved for all registered trees and histories: names (C101_names), row names (C101_row_names), single reads (C101_value), reads of branches (C101_branch), wildcards while the data stays (C101_wildcard_partial), agreement of count and list under any change of the data (C101_count), no use of removed rows (C101_alive). Refuted: a row that goes away during a read with a wildcard makes the whole read fail (C101_wildcard_fails); a handler given late does not reach tables inside rows that exist (C101_late_fails); handlers are told the table's name without its dot, and rows registered under it are doubled (C101_name_fails). The handler itself is the provider's and is taken to do what its description asks."
  },
  {
   "property": "C102",
   "status": "partial",
   "theorems": [
    "Verif.Props.C102_object_partial",
    "Verif.Props.C102_properties_partial",
    "Verif.Props.C102_value",
    "Verif.Props.C102_filter_partial",
    "Verif.Props.C102_integers",
    "Verif.Props.C102_defined",
    "Verif.Props.C102_children_fails",
    "Verif.Props.C102_line_feed_fails",
    "Verif.Props.C102_small_integers_fails",
    "Verif.Props.C102_unset_fails",
    "Verif.Props.C102_filter_text_fails"
   ],
   "note": "For trees where whatever has children has a property, and texts without line feeds; in filters, texts without space and closing parenthesis. An object without properties hides its children, line feeds in texts look like further properties, signed and unsigned integers of eight bits print alike, a value never set reads through NULL (all proved)."
  },
  {
   "property": "C103",
   "status": "partial",
   "theorems": [
    "Verif.Props.C103_answers_partial",
    "Verif.Props.C103_once",
    "Verif.Props.C103_taken",
    "Verif.Props.C103_quiet",
    "Verif.Props.C103_race_fails",
    "Verif.Props.C103_race_skips_fails",
    "Verif.Props.C103_lock",
    "Verif.Props.C103_nested_fails",
    "Verif.Props.C103_dispatch_fails",
    "Verif.Props.C103_crowded_fails",
    "Verif.Props.C103_callback_fails",
    "Verif.Props.C103_reserved_fails"
   ],
   "note": "For programs that leave the two reserved method names alone and objects with room for them. With 31 methods an event that was refused is there all the same and can never be left; a second callback is dropped though success is answered; removing a reserved method stops subscriptions for good; a listener leaving while another thread publishes makes the loop read a NULL address or pass over another listener; registering a first event loses the mutex half way; an object can be freed while its request is handled (all proved)."
  },
  {
   "property": "C104",
   "status": "partial",
   "theorems": [
    "Verif.Props.C104_flow_partial",
    "Verif.Props.C104_only",
    "Verif.Props.C104_ended",
    "Verif.Props.C104_default_fails",
    "Verif.Props.C104_forgotten_fails",
    "Verif.Props.C104_overlap_fails",
    "Verif.Props.C104_alias_fails"
   ],
   "note": "For calls about one event that do not overlap, providers that do not forget and names used in one way. After a provider started again, subscribing is answered with success without asking it and nothing arrives; a call overlapping with one that fails is told of success; an event subscribed to by two names is lost by giving up one; a NULL event, allowed by the header, is undefined behaviour (all proved)."
  },
  {
   "property": "C105",
   "status": "partial",
   "theorems": [
    "Verif.Props.C105_kept_partial",
    "Verif.Props.C105_called",
    "Verif.Props.C105_sent",
    "Verif.Props.C105_ended",
    "Verif.Props.C105_defined_partial",
    "Verif.Props.C105_goes_on_partial",
    "Verif.Props.C105_leak_fails",
    "Verif.Props.C105_close_fails",
    "Verif.Props.C105_later_fails"
   ],
   "note": "For programs that close a handle only when its calls had their callbacks called; otherwise the thread of a call uses a freed handle or connection. Without a thread to be had the parameters stay for ever, and parameters changed after the call returned may be sent as changed (all proved). A release is taken as one step; that two at once may destroy twice is C41_race_fails."
  },
  {
   "property": "C106",
   "status": "partial",
   "theorems": [
    "Verif.Props.C106_answers_partial",
    "Verif.Props.C106_one",
    "Verif.Props.C106_waits",
    "Verif.Props.C106_stuck_fails",
    "Verif.Props.C106_twice_fails",
    "Verif.Props.C106_last_fails",
    "Verif.Props.C106_between_fails",
    "Verif.Props.C106_first_fails",
    "Verif.Props.C106_failed_fails"
   ],
   "note": "That there is one connection, and what a call can wait for, hold for all interleavings; answers for processes in which opening and closing do not overlap with other calls and which close only what is open. Otherwise: closing without a connection leaves the mutex locked for ever or uses a destroyed one; one object registered does not keep another from closing; who opens during closing is told of success; two that open first at the same time make the mutex twice (all proved)."
  },
  {
   "property": "C107",
   "status": "partial",
   "theorems": [
    "Verif.Props.C107_waits_partial",
    "Verif.Props.C107_number",
    "Verif.Props.C107_unchanged",
    "Verif.Props.C107_overflow_fails",
    "Verif.Props.C107_long_fails",
    "Verif.Props.C107_cut_fails",
    "Verif.Props.C107_names_fails",
    "Verif.Props.C107_env_fails",
    "Verif.Props.C107_reset_fails",
    "Verif.Props.C107_subscribe_fails",
    "Verif.Props.C107_async_fails",
    "Verif.Props.C107_closed_fails"
   ],
   "note": "For program names of at most 89 characters and numbers in bounds. Otherwise: too many seconds in a file or given to an asynchronous call overflow; 25 digits are read past the buffer; larger numbers are cut; names cut to the same file; a variable without a number makes calls fail at once; long times for subscribing are below zero; configuring a closed handle uses it (all proved)."
  },
  {
   "property": "C108",
   "status": "partial",
   "theorems": [
    "Verif.Props.C108_names_partial",
    "Verif.Props.C108_router",
    "Verif.Props.C108_defined_partial",
    "Verif.Props.C108_objects_defined",
    "Verif.Props.C108_error",
    "Verif.Props.C108_public",
    "Verif.Props.C108_short_fails",
    "Verif.Props.C108_number_fails",
    "Verif.Props.C108_text_fails",
    "Verif.Props.C108_dangling_fails",
    "Verif.Props.C108_count_fails",
    "Verif.Props.C108_garbage_fails",
    "Verif.Props.C108_none_fails"
   ],
   "note": "For the answers the router sends, with enough memory and, for wildcards, something found. Otherwise: more items than announced are written past the array, a number missing or an item that is no text is undefined, fewer items leave places unset; running out of memory leaves a freed array with the caller in three calls and a wrong number in the public one; a wildcard that matches nothing does not set the number (all proved)."
  },
  {
   "property": "C109",
   "status": "partial",
   "theorems": [
    "Verif.Props.C109_meet_partial",
    "Verif.Props.C109_same_socket",
    "Verif.Props.C109_once_partial",
    "Verif.Props.C109_apart_partial",
    "Verif.Props.C109_refused",
    "Verif.Props.C109_poor",
    "Verif.Props.C109_tcp_fails",
    "Verif.Props.C109_short_fails",
    "Verif.Props.C109_nameless_fails",
    "Verif.Props.C109_missing_fails",
    "Verif.Props.C109_twins_fails",
    "Verif.Props.C109_seam_fails",
    "Verif.Props.C109_long_fails",
    "Verif.Props.C109_second_fails",
    "Verif.Props.C109_thread_fails"
   ],
   "note": "With a broker in the file system and names for which the socket's file has at most 107 bytes. Otherwise: with a broker over TCP every request is undefined, requests lacking fields are undefined, processes of one program share sockets, so do long names and names with an underscore at the right place, long names make a thread for every request, and a thread that cannot be started is answered with success (all proved)."
  },
  {
   "property": "C11",
   "status": "partial",
   "theorems": [
    "Verif.Props.C11_metadata_round_trip_partial",
    "Verif.Props.C11_body_unaffected_partial",
    "Verif.Props.C11_large_fails"
   ],
   "note": "Bodies below 2 GiB - 32 KiB; larger ones lose their metadata (proved)."
  },
  {
   "property": "C110",
   "status": "partial",
   "theorems": [
    "Verif.Props.C110_exact",
    "Verif.Props.C110_word_partial",
    "Verif.Props.C110_default",
    "Verif.Props.C110_initial",
    "Verif.Props.C110_room",
    "Verif.Props.C110_cut_fails",
    "Verif.Props.C110_nul_fails"
   ],
   "note": "What is used is known exactly for every file without NUL. It is the whole word if the word with the blanks before it on its line has at most 255 bytes; otherwise the word is cut without an error, and a NUL hides the rest of its line (all proved). It always fits."
  },
  {
   "property": "C111",
   "status": "partial",
   "theorems": [
    "Verif.Props.C111_all_or_nothing_partial",
    "Verif.Props.C111_unheard",
    "Verif.Props.C111_ended_fails",
    "Verif.Props.C111_interval_fails"
   ],
   "note": "For subscriptions that were not ended while their provider was away, with no request settled during the call, and filters with plain values. Otherwise a refused subscription can come about later; and subscriptions that differ only in interval or duration are refused (both proved)."
  },
  {
   "property": "C112",
   "status": "partial",
   "theorems": [
    "Verif.Props.C112_told_partial",
    "Verif.Props.C112_others",
    "Verif.Props.C112_provider_fails",
    "Verif.Props.C112_again_fails",
    "Verif.Props.C112_order_fails",
    "Verif.Props.C112_full_fails",
    "Verif.Props.C112_number_fails",
    "Verif.Props.C112_garbled_fails",
    "Verif.Props.C112_forged_fails"
   ],
   "note": "Told exactly while direct handles are open, from a point where a listener could be added and with a handle always open, and no other listener under the number 2. Proved otherwise: a provider without direct handles is never told, nor is one that closed its last handle too early; a notice that is no JSON text crashes the process, and any client may send one."
  },
  {
   "property": "C113",
   "status": "partial",
   "theorems": [
    "Verif.Props.C113_options_partial",
    "Verif.Props.C113_default",
    "Verif.Props.C113_file_partial",
    "Verif.Props.C113_broken",
    "Verif.Props.C113_crash_fails",
    "Verif.Props.C113_nowhere_fails",
    "Verif.Props.C113_ignored_fails",
    "Verif.Props.C113_many_fails",
    "Verif.Props.C113_text_fails",
    "Verif.Props.C113_wait_fails"
   ],
   "note": "For at most five different addresses at all of which the system lets the router listen. Proved otherwise: with one address that cannot be bound, the first client crashes the router; with none that can, it runs and nobody can connect; options are ignored when the file exists."
  },
  {
   "property": "C114",
   "status": "partial",
   "theorems": [
    "Verif.Props.C114_warning_partial",
    "Verif.Props.C114_long_fails",
    "Verif.Props.C114_turns_fails",
    "Verif.Props.C114_days_fails"
   ],
   "note": "For names of at most 126 characters within 24 days. Proved otherwise: names of 127 characters are warned of every time, and after 25 days a warning is left out. Two names in turn are warned of every time."
  },
  {
   "property": "C115",
   "status": "proved",
   "theorems": [
    "Verif.Props.C115_whole",
    "Verif.Props.C115_cut",
    "Verif.Props.C115_damaged_fails",
    "Verif.Props.C115_overflow_fails",
    "Verif.Props.C115_huge_fails"
   ],
   "note": "For well-formed messages of less than 2^31 bytes, empty ones included. Proved besides: after one damaged header a good message is lost too, an announced header longer than an 8 KB buffer overflows it, and a payload announced with 2^31 bytes or more is not read but handed over."
  },
  {
   "property": "C12",
   "status": "proved",
   "theorems": [
    "Verif.Props.C12_header_round_trip",
    "Verif.Props.C12_header_injective"
   ],
   "note": ""
  },
  {
   "property": "C13",
   "status": "proved",
   "theorems": [
    "Verif.Props.C13_decode_safe",
    "Verif.Props.C13_decode_rejects",
    "Verif.Props.C13_accepts_iff"
   ],
   "note": ""
  },
  {
   "property": "C14",
   "status": "proved",
   "theorems": [
    "Verif.Props.C14_chunking_irrelevant"
   ],
   "note": ""
  },
  {
   "property": "C15",
   "status": "partial",
   "theorems": [
    "Verif.Props.C15_each_message_once_partial",
    "Verif.Props.C15_prefix_preserved_partial",
    "Verif.Props.C15_empty_payload_fails"
   ],
   "note": "All streams of messages with a non-empty payload; an empty payload is proved to lose the message and the connection."
  },
  {
   "property": "C16",
   "status": "partial",
   "theorems": [
    "Verif.Props.C16_unroutable_answered_partial",
    "Verif.Props.C16_others_dropped_partial",
    "Verif.Props.C16_answered_to_live_partial",
    "Verif.Props.C16_reply_to_router_fails"
   ],
   "note": "All histories of clients using the router as they should, in terms of lookups (any names) and of the table of registrations (conventional names). A reply topic that is the router's own makes the router run the handler (proved)."
  },
  {
   "property": "C17",
   "status": "partial",
   "theorems": [
    "Verif.Props.C17_lookup_is_live_partial",
    "Verif.Props.C17_below_partial",
    "Verif.Props.C17_remove_exact_partial",
    "Verif.Props.C17_forwards_to_live_partial",
    "Verif.Props.C17_brace_query_fails",
    "Verif.Props.C17_stale_table_fails"
   ],
   "note": "Names using braces for tables only; names mixing rows and elements and stale table marks fail (proved). Both for the tree and for the whole router against a flat table of registrations. Everything-below lookups: histories without removals of names."
  },
  {
   "property": "C18",
   "status": "partial",
   "theorems": [
    "Verif.Props.C18_forgotten_not_routed_partial",
    "Verif.Props.C18_only_connected_partial",
    "Verif.Props.C18_leave_exact_partial",
    "Verif.Props.C18_advisory_twice_fails",
    "Verif.Props.C18_removed_below_fails",
    "Verif.Props.C18_router_topic_fails",
    "Verif.Props.C18_wildcard_query_fails"
   ],
   "note": "Tree: all histories and names, with registrations as the router makes them. Router: all histories of orderly clients send only to connected clients, and a departure removes exactly the departed client's routes. Subscribing to the advisory topic twice under one id or to a router topic, and wildcard queries after removals, read freed memory (proved)."
  },
  {
   "property": "C19",
   "status": "partial",
   "theorems": [
    "Verif.Props.C19_own_names_partial",
    "Verif.Props.C19_other_client_fails",
    "Verif.Props.C19_router_topics_fails"
   ],
   "note": "Unsubscribing from names of one's own leaves everybody else's deliveries as they were. Unsubscribing from others' names, or the router's, is not refused (proved)."
  },
  {
   "property": "C20",
   "status": "partial",
   "theorems": [
    "Verif.Props.C20_taken_name_refused",
    "Verif.Props.C20_removed_name_free",
    "Verif.Props.C20_free_name_accepted_partial",
    "Verif.Props.C20_emptied_name_fails"
   ],
   "note": "Refusal while taken and acceptance after removal: all conventional histories. Names emptied by departure with something below them stay refused (proved)."
  },
  {
   "property": "C21",
   "status": "partial",
   "theorems": [
    "Verif.Props.C21_response_belongs_partial",
    "Verif.Props.C21_failures_explained_partial",
    "Verif.Props.C21_numbers_distinct_partial",
    "Verif.Props.C21_timeout_overlap_fails"
   ],
   "note": "Any number of requests and responses in every interleaving the mutex allows, late, duplicate and unknown responses included. A timeout that strikes while another thread is in its section is undefined behaviour (proved); requests sent by the reader thread itself are not modelled."
  },
  {
   "property": "C22",
   "status": "partial",
   "theorems": [
    "Verif.Props.C22_list_used_under_mutex_partial",
    "Verif.Props.C22_timeout_without_mutex_fails"
   ],
   "note": "Holds for every thread except a request leaving after a timeout, which never owns the mutex (proved)."
  },
  {
   "property": "C23",
   "status": "proved",
   "theorems": [
    "Verif.Props.C23_fifo",
    "Verif.Props.C23_discards_only_beyond_limit",
    "Verif.Props.C23_all_delivered"
   ],
   "note": "Every execution of reader thread, callback thread and application threads."
  },
  {
   "property": "C24",
   "status": "partial",
   "theorems": [
    "Verif.Props.C24_message_finds_its_listener_partial",
    "Verif.Props.C24_table_operations_partial",
    "Verif.Props.C24_library_ids_are_new_partial",
    "Verif.Props.C24_same_id_fails",
    "Verif.Props.C24_removed_listener_called_fails"
   ],
   "note": "Ids not in use when chosen; that the library's own choices are so is proved for fewer than 2^32-10000 of them. An id in use is accepted again, and a callback can run after its listener was removed (both proved)."
  },
  {
   "property": "C25",
   "status": "partial",
   "theorems": [
    "Verif.Props.C25_map_is_finite_map",
    "Verif.Props.C25_default_map",
    "Verif.Props.C25_string_hash_fails"
   ],
   "note": "Any key compare/hash pair that agrees, and the default configuration with hash arithmetic taken as wrapping. The default string hash overflows a signed int, which is undefined, for every key starting with seven printable characters (proved)."
  },
  {
   "property": "C26",
   "status": "proved",
   "theorems": [
    "Verif.Props.C26_vector_is_list",
    "Verif.Props.C26_vector_contents"
   ],
   "note": ""
  },
  {
   "property": "C27",
   "status": "proved",
   "theorems": [
    "Verif.Props.C27_list_is_sequence",
    "Verif.Props.C27_items_distinct"
   ],
   "note": ""
  },
  {
   "property": "C28",
   "status": "proved",
   "theorems": [
    "Verif.Props.C28_keys_distinct",
    "Verif.Props.C28_subscribe_adds",
    "Verif.Props.C28_duplicate_refused",
    "Verif.Props.C28_duplicate_answer",
    "Verif.Props.C28_unsubscribe_removes"
   ],
   "note": "Every history of requests, lost connections, rows and registrations of a provider that starts without cached subscriptions, as long as it does not run into undefined behaviour."
  },
  {
   "property": "C29",
   "status": "partial",
   "theorems": [
    "Verif.Props.C29_no_trace_partial",
    "Verif.Props.C29_raw_data_fails",
    "Verif.Props.C29_provider_told_fails"
   ],
   "note": "All requests except raw data of an element that is not an event, which is proved to leave the subscription behind; the provider's handler is told of refused repetitions (proved)."
  },
  {
   "property": "C30",
   "status": "partial",
   "theorems": [
    "Verif.Props.C30_restored_partial",
    "Verif.Props.C30_long_name_fails",
    "Verif.Props.C30_not_filter_fails",
    "Verif.Props.C30_number_fails"
   ],
   "note": "Every saved list of ordinary subscriptions comes back exactly, without the subscriptions of dead listeners. Refuted for listener or event names of 256 bytes and more, and for filters with a negation: these end the reading there. The number of a restored subscription changes when its event is registered."
  },
  {
   "property": "C31",
   "status": "partial",
   "theorems": [
    "Verif.Props.C31_whole_partial",
    "Verif.Props.C31_cut_partial",
    "Verif.Props.C31_cut_fails",
    "Verif.Props.C31_unterminated_fails"
   ],
   "note": "Whatever is restored from any file stands in it record by record, and a saved file cut anywhere restores exactly the complete ones or the load goes out of bounds. Refuted: a cut within a listener's name reads beyond the end, and so does a text value without terminator."
  },
  {
   "property": "C32",
   "status": "partial",
   "theorems": [
    "Verif.Props.C32_disconnect_partial",
    "Verif.Props.C32_filter_fails",
    "Verif.Props.C32_crash_fails"
   ],
   "note": "Subscriptions without filter, interval, duration or raw data; the others are proved to stay, and a mixture to crash the provider. When a provider is told that a consumer is gone is C112."
  },
  {
   "property": "C33",
   "status": "partial",
   "theorems": [
    "Verif.Props.C33_row_deleted_partial",
    "Verif.Props.C33_exact_if_youngest",
    "Verif.Props.C33_younger_fails",
    "Verif.Props.C33_polling_freed_fails"
   ],
   "note": "Every subscription covering something below the row is removed, and exactly these if they are the youngest ones. Fails in general: all younger subscriptions are removed with them, and a polled element of a deleted row may stay polled."
  },
  {
   "property": "C34",
   "status": "partial",
   "theorems": [
    "Verif.Props.C34_at_most_once_partial",
    "Verif.Props.C34_settled_partial",
    "Verif.Props.C34_attempts_partial",
    "Verif.Props.C34_not_early_partial",
    "Verif.Props.C34_close_fails",
    "Verif.Props.C34_cancel_fails",
    "Verif.Props.C34_again_fails",
    "Verif.Props.C34_lost_fails"
   ],
   "note": "As long as nothing undefined happens: at most one callback per request and none after it was taken back; whenever the worker sleeps, every request is settled or its timeout lies ahead and the worker wakes in time; each answer completes the request or puts it off by exactly the doubled, capped delay, never beyond the timeout; no early attempts. Refuted: closing a handle with two requests, cancelling during an attempt, asking again within the callback, and the code after an unusable answer."
  },
  {
   "property": "C35",
   "status": "partial",
   "theorems": [
    "Verif.Props.C35_count_partial",
    "Verif.Props.C35_endless_partial",
    "Verif.Props.C35_ends_partial",
    "Verif.Props.C35_silence_partial",
    "Verif.Props.C35_early_fails",
    "Verif.Props.C35_outlasts_fails",
    "Verif.Props.C35_deadlock_fails",
    "Verif.Props.C35_deadlock2_fails",
    "Verif.Props.C35_close_fails",
    "Verif.Props.C35_negative_fails",
    "Verif.Props.C35_overflow_fails"
   ],
   "note": "One event per successful reading, exactly duration/interval of them, then one notice, then nothing, whatever else happens; without disturbance the end, or without duration the next event, can always be reached; nothing after unsubscribing is answered. Refuted: unsubscribing sends one more event at once, failed readings prolong the subscription without bound, unsubscribing around the end deadlocks, closing the handle leaves the thread with freed memory, huge durations end at once and huge intervals overflow."
  },
  {
   "property": "C36",
   "status": "partial",
   "theorems": [
    "Verif.Props.C36_change_partial",
    "Verif.Props.C36_kinds",
    "Verif.Props.C36_defined_partial",
    "Verif.Props.C36_type_fails",
    "Verif.Props.C36_datetime_fails",
    "Verif.Props.C36_nan_fails",
    "Verif.Props.C36_bytes_fails",
    "Verif.Props.C36_unwatched_fails",
    "Verif.Props.C36_deadlock_fails",
    "Verif.Props.C36_close_fails"
   ],
   "note": "For every history of watching, unwatching and polling any number of properties whose values are told apart by comparison, which booleans, integers of up to 32 bits of one type and texts are. Refuted for values that compare equal though they differ, times, not-a-number and growing byte values, for properties that could not be read at first, and by a deadlock with subscribing and a use of freed subscriptions while closing."
  },
  {
   "property": "C37",
   "status": "partial",
   "theorems": [
    "Verif.Props.C37_success",
    "Verif.Props.C37_others_untouched",
    "Verif.Props.C37_restored_partial",
    "Verif.Props.C37_missing_fails",
    "Verif.Props.C37_repeated_fails",
    "Verif.Props.C37_undecodable_fails"
   ],
   "note": "Success sets exactly what was asked (unconditional) and parameters outside the request never change. Failure restores everything for distinct, readable and writable parameters with one failing handler call. Refuted: a missing or read-only parameter leaves the earlier ones changed; repeated names are restored to an intermediate value; an undecodable value that is not the last is handed over as empty."
  },
  {
   "property": "C38",
   "status": "partial",
   "theorems": [
    "Verif.Props.C38_success_partial",
    "Verif.Props.C38_failure_partial",
    "Verif.Props.C38_lost_fails",
    "Verif.Props.C38_three_fails",
    "Verif.Props.C38_legacy_fails"
   ],
   "note": "Success means all set when no call is lost and no handler answers 100; failure over two providers changes nothing when one handler call fails. Refuted: a lost call followed by a success; three providers; code 100."
  },
  {
   "property": "C39",
   "status": "partial",
   "theorems": [
    "Verif.Props.C39_complete_partial",
    "Verif.Props.C39_one_provider_partial",
    "Verif.Props.C39_hidden_fails",
    "Verif.Props.C39_wildcard_fails"
   ],
   "note": "Complete for non-wildcard names with at most one provider each when every answer said success, and for one provider outright. Refuted: an earlier provider's failure is forgotten; a wildcard drops the other names of its provider."
  },
  {
   "property": "C40",
   "status": "partial",
   "theorems": [
    "Verif.Props.C40_at_most_one_open",
    "Verif.Props.C40_request_refused_while_open",
    "Verif.Props.C40_close_needs_id",
    "Verif.Props.C40_stale_id_fails"
   ],
   "note": "At most one open, refusal while open, wrong ids refused: proved for all histories. All sessions share id 1, so a stale id closes a newer session (proved)."
  },
  {
   "property": "C41",
   "status": "partial",
   "theorems": [
    "Verif.Props.C41_safe_partial",
    "Verif.Props.C41_destroyed_partial",
    "Verif.Props.C41_every_pointer",
    "Verif.Props.C41_replace_fails",
    "Verif.Props.C41_parent_fails",
    "Verif.Props.C41_circle_fails",
    "Verif.Props.C41_race_fails"
   ],
   "note": "For all programs that only use what they hold or what is owned by that, every call is carried out and everything held or owned is in memory; without circles of pointers what is in memory is exactly that, so all is destroyed with the last owner. The code violates the rest: setting a property to the value only it owns, going from a child to a destroyed parent, circles, and two threads releasing at once."
  },
  {
   "property": "C42",
   "status": "partial",
   "theorems": [
    "Verif.Props.C42_later_exact",
    "Verif.Props.C42_elapsed_exact_partial",
    "Verif.Props.C42_later_elapsed_partial",
    "Verif.Props.C42_compare_is_order",
    "Verif.Props.C42_later_not_before",
    "Verif.Props.C42_long_span_fails"
   ],
   "note": "Elapsed time below 2^31 ms; above, the result is negative (proved)."
  },
  {
   "property": "C43",
   "status": "partial",
   "theorems": [
    "Verif.Props.C43_set_value",
    "Verif.Props.C43_sequence",
    "Verif.Props.C43_set_property_partial",
    "Verif.Props.C43_again_fails",
    "Verif.Props.C43_same_fails",
    "Verif.Props.C43_list_fails",
    "Verif.Props.C43_shared_fails"
   ],
   "note": "Setting values by name makes the object the ordered map, for every sequence of sets and every object (C43_set_value, C43_sequence are complete for values). Setting property handles does so for a property that heads no list and is not yet in the object; the code violates the rest."
  },
  {
   "property": "C44",
   "status": "partial",
   "theorems": [
    "Verif.Props.C44_exact_partial",
    "Verif.Props.C44_accepts",
    "Verif.Props.C44_boolean",
    "Verif.Props.C44_blank_fails"
   ],
   "note": "For every text and integer type, except unsigned types and a minus sign after blanks, where it is refuted: every negative number is accepted as another number. All texts of numbers in range are accepted."
  },
  {
   "property": "C45",
   "status": "partial",
   "theorems": [
    "Verif.Props.C45_encode_is_standard",
    "Verif.Props.C45_round_trip_partial",
    "Verif.Props.C45_empty_fails",
    "Verif.Props.C45_accepts_valid",
    "Verif.Props.C45_rejects_invalid_partial",
    "Verif.Props.C45_bad_padding_fails"
   ],
   "note": "Non-empty byte strings; texts not ending in '=' followed by another character. Both excluded cases are proved to fail."
  },
  {
   "property": "C46",
   "status": "partial",
   "theorems": [
    "Verif.Props.C46_publish_partial",
    "Verif.Props.C46_publish_defined",
    "Verif.Props.C46_nobody",
    "Verif.Props.C46_filter_field_fails",
    "Verif.Props.C46_raw_answer_fails"
   ],
   "note": "Recipients, multiplicity, filter answers and result are proved for every reachable state. Fails: subscribers without filter see the filter field of earlier ones; raw data events report success although nothing was sent."
  },
  {
   "property": "C47",
   "status": "partial",
   "theorems": [
    "Verif.Props.C47_match_partial",
    "Verif.Props.C47_row_without_alias_fails",
    "Verif.Props.C47_leading_dot_fails",
    "Verif.Props.C47_open_bracket_fails",
    "Verif.Props.C47_one_character_fails"
   ],
   "note": "Properly written names of at least two characters, not beginning with a dot; with aliases, every row on the way has one. Each excluded case is proved to fail."
  },
  {
   "property": "C48",
   "status": "partial",
   "theorems": [
    "Verif.Props.C48_declared_found_partial",
    "Verif.Props.C48_only_declared_partial",
    "Verif.Props.C48_levels_partial",
    "Verif.Props.C48_late_table_fails",
    "Verif.Props.C48_again_fails"
   ],
   "note": "Proved for elements declared in order (tables before their content, nothing twice). Fails otherwise. Unregistration is not modelled."
  },
  {
   "property": "C49",
   "status": "partial",
   "theorems": [
    "Verif.Props.C49_order_partial",
    "Verif.Props.C49_once_partial",
    "Verif.Props.C49_answered_partial",
    "Verif.Props.C49_reply_partial",
    "Verif.Props.C49_undefined",
    "Verif.Props.C49_nested_fails",
    "Verif.Props.C49_unregistered_fails",
    "Verif.Props.C49_direct_fails"
   ],
   "note": "For every history of calls, returning callbacks, later responses and unregistered objects up to undefined behaviour: one callback per call in the order of arrival, at most one response, none missing, each the one given. C49_undefined lists when behaviour is undefined. Refuted: calls within a callback (use after free; nothing in the repository makes such calls at present), an object unregistered after its call was looked up, and direct connections with a callback that gives no response at once."
  },
  {
   "property": "C50",
   "status": "partial",
   "theorems": [
    "Verif.Props.C50_request_partial",
    "Verif.Props.C50_reply_partial",
    "Verif.Props.C50_get_handler_fails",
    "Verif.Props.C50_existing_fails"
   ],
   "note": "For every request, every result of the provider and every initial value that can be sent, both sides agree, whatever follows in the message. Refuted for a failing handler for getting (the consumer takes the number of the subscription for the mark of an initial value) and for subscriptions that exist already."
  },
  {
   "property": "C51",
   "status": "partial",
   "theorems": [
    "Verif.Props.C51_waits_as_asked_partial",
    "Verif.Props.C51_finds_provider_partial",
    "Verif.Props.C51_waits_bounded",
    "Verif.Props.C51_long_timeout_fails"
   ],
   "note": "Timeouts below 2^31 ms; longer ones overflow (proved)."
  },
  {
   "property": "C52",
   "status": "partial",
   "theorems": [
    "Verif.Props.C52_lookup_by_name",
    "Verif.Props.C52_valid_iff_open",
    "Verif.Props.C52_lookup_by_id_partial",
    "Verif.Props.C52_unknown_id_fails"
   ],
   "note": "By name and validity: all histories. By id: only ids of open handles; other ids give some other handle (proved)."
  },
  {
   "property": "C53",
   "status": "proved",
   "theorems": [
    "Verif.Props.C53_filter_compare_equal_iff"
   ],
   "note": ""
  },
  {
   "property": "C54",
   "status": "partial",
   "theorems": [
    "Verif.Props.C54_receive_memory_safe_partial",
    "Verif.Props.C54_receive_memory_safe_fails"
   ],
   "note": "64 KiB buffers, announced header length at least 6, total size within int; a shorter announced header is proved to break it."
  },
  {
   "property": "C55",
   "status": "partial",
   "theorems": [
    "Verif.Props.C55_items_inside_message_partial",
    "Verif.Props.C55_hostile_value_fails",
    "Verif.Props.C55_truncated_value_fails"
   ],
   "note": "Items stay inside the message; values do not: an over-long payload for a fixed-size type overflows, and a truncated message is used uninitialised (both proved)."
  },
  {
   "property": "C56",
   "status": "partial",
   "theorems": [
    "Verif.Props.C56_destroyed_once_partial",
    "Verif.Props.C56_destroyed_once_fails"
   ],
   "note": "Histories in which every removal destroys; otherwise data removed without a destroyer is destroyed again with the list (proved)."
  },
  {
   "property": "C57",
   "status": "partial",
   "theorems": [
    "Verif.Props.C57_handles_distinct",
    "Verif.Props.C57_open_partial",
    "Verif.Props.C57_reopen_fails"
   ],
   "note": "A failed connection on re-open frees the old handle twice (proved)."
  },
  {
   "property": "C58",
   "status": "partial",
   "theorems": [
    "Verif.Props.C58_short_names_parse_partial",
    "Verif.Props.C58_long_name_fails",
    "Verif.Props.C58_validated_name_fails"
   ],
   "note": "Names of at most 32 components; longer ones overflow in every state (proved)."
  },
  {
   "property": "C59",
   "status": "partial",
   "theorems": [
    "Verif.Props.C59_vague_subscription_partial",
    "Verif.Props.C59_bad_subscription_fails",
    "Verif.Props.C59_bad_diagnostic_fails"
   ],
   "note": "JSON subscriptions lacking fields or with invalid names are refused without effect. Payloads that are not JSON crash the router in every state (proved)."
  },
  {
   "property": "C60",
   "status": "partial",
   "theorems": [
    "Verif.Props.C60_same_name_fails",
    "Verif.Props.C60_components_partial",
    "Verif.Props.C60_elements_partial",
    "Verif.Props.C60_objects_partial"
   ],
   "note": "Conventional names; components, elements and objects queries. When two clients register components of one name, the elements of the second are not named (proved)."
  },
  {
   "property": "C61",
   "status": "partial",
   "theorems": [
    "Verif.Props.C61_stays",
    "Verif.Props.C61_row_added_partial",
    "Verif.Props.C61_new_id_fails",
    "Verif.Props.C61_lost_fails"
   ],
   "note": "Proved for requests and lost connections of others, and for added rows whose name is no textual prefix of the event name. Fails for these."
  },
  {
   "property": "C62",
   "status": "partial",
   "theorems": [
    "Verif.Props.C62_covers_partial",
    "Verif.Props.C62_dangling_fails"
   ],
   "note": "Proved for well written event names as long as the element the request was made for exists. Fails (use of freed memory) after an outer row with an empty inner table is deleted."
  },
  {
   "property": "C63",
   "status": "proved",
   "theorems": [
    "Verif.Props.C63_commit_last"
   ],
   "note": "For every request and provider."
  },
  {
   "property": "C64",
   "status": "partial",
   "theorems": [
    "Verif.Props.C64_set_partial",
    "Verif.Props.C64_get_partial",
    "Verif.Props.C64_shifted_fails"
   ],
   "note": "For names with at most one provider each, under every pattern of lost calls and failures. Refuted when a name has none and a later one several."
  },
  {
   "property": "C65",
   "status": "partial",
   "theorems": [
    "Verif.Props.C65_named_partial",
    "Verif.Props.C65_second_fails",
    "Verif.Props.C65_single_fails"
   ],
   "note": "For requests of two or more parameters at one provider. Refuted for a failure at the second provider and for one parameter."
  },
  {
   "property": "C66",
   "status": "partial",
   "theorems": [
    "Verif.Props.C66_round_trip_partial",
    "Verif.Props.C66_text_exact",
    "Verif.Props.C66_byte_fails",
    "Verif.Props.C66_bytes_fails"
   ],
   "note": "For booleans, characters, integers and texts. Refuted for RBUS_BYTE (all but one value) and RBUS_BYTES (all but the empty one). Times are in C78, floating-point values in C79."
  },
  {
   "property": "C67",
   "status": "partial",
   "theorems": [
    "Verif.Props.C67_buffer_partial",
    "Verif.Props.C67_string_fails",
    "Verif.Props.C67_bytes_fails"
   ],
   "note": "For booleans, characters and integers. Refuted for texts that do not fit (no terminator) and RBUS_BYTES (overrun). Times are in C78, floating-point values in C79."
  },
  {
   "property": "C68",
   "status": "partial",
   "theorems": [
    "Verif.Props.C68_delivery_partial",
    "Verif.Props.C68_exists_partial",
    "Verif.Props.C68_unsubscribed_partial",
    "Verif.Props.C68_refused_fails",
    "Verif.Props.C68_again_fails",
    "Verif.Props.C68_unreachable_fails",
    "Verif.Props.C68_concurrent_fails",
    "Verif.Props.C68_existing_fails",
    "Verif.Props.C68_initial_value_fails",
    "Verif.Props.C68_nan_fails",
    "Verif.Props.C68_time_fails",
    "Verif.Props.C68_pending_fails"
   ],
   "note": "For every regular history with plain filters: where each event goes, what ends a subscription, what counts as existing. Refuted for what is not regular: a refused second subscription after an end that could not be told brings the old handler back, an event of an ended subscription whose provider cannot be told, two calls at once, a provider that knows the subscription, ending from within the initial value; and for NaN, times, and pending subscriptions with another interval."
  },
  {
   "property": "C69",
   "status": "partial",
   "theorems": [
    "Verif.Props.C69_all_or_nothing_partial",
    "Verif.Props.C69_ended_fails",
    "Verif.Props.C69_raw_fails",
    "Verif.Props.C69_null_fails"
   ],
   "note": "For rbusEvent_SubscribeEx after every regular history, when nothing else happens to the handle during the call. Refuted for subscriptions ended while their provider was away and for rbusEvent_SubscribeExRawData."
  },
  {
   "property": "C70",
   "status": "partial",
   "theorems": [
    "Verif.Props.C70_order",
    "Verif.Props.C70_seen_partial",
    "Verif.Props.C70_max_partial",
    "Verif.Props.C70_pending_partial",
    "Verif.Props.C70_lost_fails",
    "Verif.Props.C70_max_fails",
    "Verif.Props.C70_serial_fails"
   ],
   "note": "Order and at most once for every history (C70_order is complete). Every task is run when no worker leaves at the time limit while a task waits; at most the given number run, and the caller is told exactly when a task has to wait, when no task is given before the thread made for the last one has begun. The code violates the rest."
  },
  {
   "property": "C71",
   "status": "partial",
   "theorems": [
    "Verif.Props.C71_result",
    "Verif.Props.C71_waits_partial",
    "Verif.Props.C71_memory_partial",
    "Verif.Props.C71_end_partial",
    "Verif.Props.C71_deadline",
    "Verif.Props.C71_elapsed_partial",
    "Verif.Props.C71_waits_fails",
    "Verif.Props.C71_memory_fails",
    "Verif.Props.C71_twice_fails",
    "Verif.Props.C71_elapsed_fails"
   ],
   "note": "The result and that no task starts afterwards for every history (C71_result is complete). Waiting for all tasks works when one is running, or none waits, at the call. Memory is safe, freed once and finally freed when no thread that leaves is interrupted by another and no worker is about to begin. The code violates the rest, and measures the time waited wrongly when it passes the end of a second."
  },
  {
   "property": "C72",
   "status": "partial",
   "theorems": [
    "Verif.Props.C72_no_lost_wakeup",
    "Verif.Props.C72_count_partial",
    "Verif.Props.C72_destroy_partial",
    "Verif.Props.C72_spurious_fails",
    "Verif.Props.C72_stolen_fails",
    "Verif.Props.C72_destroy_fails"
   ],
   "note": "No wake-up is lost in any execution (C72_no_lost_wakeup is complete). Waits and posts match when there are no wake-ups without cause, posting is not interrupted before it signals and nobody overtakes a woken thread; refuted otherwise. Destroying is safe when nobody uses the semaphore; refuted for the thread whose wait has just succeeded."
  },
  {
   "property": "C73",
   "status": "partial",
   "theorems": [
    "Verif.Props.C73_no_undefined_partial",
    "Verif.Props.C73_called_for_own_topic_partial",
    "Verif.Props.C73_sent_reaches_listener_partial",
    "Verif.Props.C73_calls_in_order_partial",
    "Verif.Props.C73_has_listener_partial",
    "Verif.Props.C73_same_id_fails",
    "Verif.Props.C73_same_topic_lost_fails",
    "Verif.Props.C73_same_topic_fails",
    "Verif.Props.C73_wrong_id_fails",
    "Verif.Props.C73_remove_during_call_fails",
    "Verif.Props.C73_id_again_fails",
    "Verif.Props.C73_has_listener_private_fails",
    "Verif.Props.C73_remove_all_private_fails",
    "Verif.Props.C73_has_listener_full_fails",
    "Verif.Props.C73_after_remove_all_fails"
   ],
   "note": "Proved for applications that use each id once, one listener per topic, remove with the topic and id used for adding, and not between finding a handler and calling it. Each of these restrictions is necessary: refuted without it. A full queue drops messages."
  },
  {
   "property": "C74",
   "status": "partial",
   "theorems": [
    "Verif.Props.C74_reconnect_restores_partial",
    "Verif.Props.C74_one_remakes_partial",
    "Verif.Props.C74_link_comes_back_partial",
    "Verif.Props.C74_reconnect_defined_partial",
    "Verif.Props.C74_drop_while_telling_fails",
    "Verif.Props.C74_no_flags_fails",
    "Verif.Props.C74_no_socket_fails",
    "Verif.Props.C74_names_lost_fails",
    "Verif.Props.C74_remove_while_telling_fails",
    "Verif.Props.C74_good_link_dropped_fails"
   ],
   "note": "Proved for executions in which the link is not lost while the router is being told about the listeners, a socket can always be had, topics and ids are not shared or reused while a call about them is under way, and no entry is removed while it is read. Refuted without each of the first three and the last; further names of a listener (elements of a provider) are never told again."
  },
  {
   "property": "C75",
   "status": "partial",
   "theorems": [
    "Verif.Props.C75_one_link_per_provider",
    "Verif.Props.C75_requests_take_the_link",
    "Verif.Props.C75_lists_defined",
    "Verif.Props.C75_duplicate_refused_partial",
    "Verif.Props.C75_request_sent_partial",
    "Verif.Props.C75_close_ends_links_partial",
    "Verif.Props.C75_close_while_calling_fails",
    "Verif.Props.C75_stale_handle_fails",
    "Verif.Props.C75_refused_close_fails",
    "Verif.Props.C75_stale_close_fails",
    "Verif.Props.C75_two_openers_fails",
    "Verif.Props.C75_two_providers_hang_fails"
   ],
   "note": "One connection per provider with something open, requests choosing it, and no connection destroyed twice are proved for all interleavings. Refuted: requests while something is closed, handles whose provider has gone, closing that the provider refuses, two threads opening at once, and rbus_close with two providers, which never returns."
  },
  {
   "property": "C76",
   "status": "partial",
   "theorems": [
    "Verif.Props.C76_private_iff_open",
    "Verif.Props.C76_request_refused",
    "Verif.Props.C76_event_reaches_consumer_partial",
    "Verif.Props.C76_request_answered_partial",
    "Verif.Props.C76_events_lost_before_registering_fails",
    "Verif.Props.C76_second_parameter_lost_fails",
    "Verif.Props.C76_reopen_lost_fails",
    "Verif.Props.C76_reopen_bind_fails",
    "Verif.Props.C76_intruder_fails",
    "Verif.Props.C76_close_while_used_fails"
   ],
   "note": "Private or through the router exactly as opened, and requests refused when nothing is open, are proved for all interleavings; delivery and answering for consumers that have registered, with nothing closed meanwhile. Refuted: events before the consumer has registered, a second parameter over the network, reopening, another client on the same address, closing while used."
  },
  {
   "property": "C77",
   "status": "partial",
   "theorems": [
    "Verif.Props.C77_equal_iff_partial",
    "Verif.Props.C77_equal_without_children_partial",
    "Verif.Props.C77_values_equal_iff_partial",
    "Verif.Props.C77_equivalence_partial",
    "Verif.Props.C77_defined_partial",
    "Verif.Props.C77_received_is_equal_partial",
    "Verif.Props.C77_not_an_order_fails",
    "Verif.Props.C77_nameless_fails",
    "Verif.Props.C77_repeated_name_fails",
    "Verif.Props.C77_later_properties_fails",
    "Verif.Props.C77_type_ignored_fails",
    "Verif.Props.C77_null_inside_fails"
   ],
   "note": "Equality as indistinguishability by reading, equivalence laws and definedness are proved for all trees with names given, no NULL property or object inside, and no repeated sibling names. Refuted: the sign as an order; objects without names (crash); repeated names; properties after the first of a value; the object's type; NULL objects or properties inside values."
  },
  {
   "property": "C78",
   "status": "partial",
   "theorems": [
    "Verif.Props.C78_reads",
    "Verif.Props.C78_writes_partial",
    "Verif.Props.C78_round_trip_partial",
    "Verif.Props.C78_read_in_range",
    "Verif.Props.C78_buffer_respected",
    "Verif.Props.C78_year_1900_fails",
    "Verif.Props.C78_no_date_fails",
    "Verif.Props.C78_far_year_fails",
    "Verif.Props.C78_bad_zone_fails",
    "Verif.Props.C78_zone_notation_fails",
    "Verif.Props.C78_no_such_day_fails",
    "Verif.Props.C78_dst_uninitialised_fails"
   ],
   "note": "Reading every notation of the years 1 to 9999, writing and round trip for those years without 1900, ranges of what is read and buffers are proved. Refuted: the year 1900, times without a date, years from 10000, zones in other notations (taken for UTC or cut short), days the month does not have, the daylight-saving flag (uninitialised)."
  },
  {
   "property": "C79",
   "status": "partial",
   "theorems": [
    "Verif.Props.C79_double_text",
    "Verif.Props.C79_single_text",
    "Verif.Props.C79_double_back_partial",
    "Verif.Props.C79_single_back_partial",
    "Verif.Props.C79_double_exact",
    "Verif.Props.C79_single_exact",
    "Verif.Props.C79_not_finite",
    "Verif.Props.C79_reads",
    "Verif.Props.C79_accepted",
    "Verif.Props.C79_buffer",
    "Verif.Props.C79_double_back_fails",
    "Verif.Props.C79_single_back_fails"
   ],
   "note": "Text to the nearest unit, what is accepted, nearest value and buffers are proved; the way back for doubles from 8 and singles from 16 on, for multiples of the last digit, infinities and NaN. Refuted for smaller numbers: just below these bounds two values have the same text, and small ones become zero. Hexadecimal notation is not modelled."
  },
  {
   "property": "C80",
   "status": "partial",
   "theorems": [
    "Verif.Props.C80_success_partial",
    "Verif.Props.C80_error_partial",
    "Verif.Props.C80_error_texts",
    "Verif.Props.C80_later_partial",
    "Verif.Props.C80_later_error_partial",
    "Verif.Props.C80_no_method",
    "Verif.Props.C80_no_answer",
    "Verif.Props.C80_legacy_partial",
    "Verif.Props.C80_timeout_partial",
    "Verif.Props.C80_empty_answer_fails",
    "Verif.Props.C80_later_error_code_fails",
    "Verif.Props.C80_error_string_fails",
    "Verif.Props.C80_error_texts_fails",
    "Verif.Props.C80_timeout_fails"
   ],
   "note": "Proved byte by byte for success, errors, answers given later, missing methods and lost messages, for objects below a gigabyte. Refuted: a success answered later without parameters brings the caller an object made of the metadata; an error answered later with parameters is not noted in them; a handler's own error_string is overwritten; codes from 22 on have no text; large asynchronous timeouts overflow."
  },
  {
   "property": "C81",
   "status": "partial",
   "theorems": [
    "Verif.Props.C81_call_partial",
    "Verif.Props.C81_number_partial",
    "Verif.Props.C81_history_partial",
    "Verif.Props.C81_declared_partial",
    "Verif.Props.C81_kind_partial",
    "Verif.Props.C81_rows_partial",
    "Verif.Props.C81_listed_partial",
    "Verif.Props.C81_names_lead_back_partial",
    "Verif.Props.C81_alias_partial",
    "Verif.Props.C81_number_in_use_fails",
    "Verif.Props.C81_star_removed_fails",
    "Verif.Props.C81_template_removed_fails",
    "Verif.Props.C81_legacy_success_fails",
    "Verif.Props.C81_register_twice_fails",
    "Verif.Props.C81_register_without_dot_fails",
    "Verif.Props.C81_register_elsewhere_fails",
    "Verif.Props.C81_unregister_property_fails",
    "Verif.Props.C81_get_handler_fails",
    "Verif.Props.C81_alias_with_dot_fails",
    "Verif.Props.C81_listed_negative_fails",
    "Verif.Props.C81_empty_name_fails"
   ],
   "note": "Proved for all histories of calls as they should be, in data models whose tables have no get handler: answers, effects on every name, kinds and handlers of elements, rows and aliases, listing. Refuted outside: a handler giving a number in use makes a row of the same name; removing the row * or {i} removes the template and the next row crashes the provider; legacy success is told without a row; registering twice succeeds without a dot at the end or from 2^31 on; registering in something else crashes; unregistering takes properties; a get handler at the table makes removals hit the template; aliases with dots are not found; numbers from 2^31 on are listed as negative; an empty name is read before its start."
  },
  {
   "property": "C82",
   "status": "partial",
   "theorems": [
    "Verif.Props.C82_partial_path_partial",
    "Verif.Props.C82_below",
    "Verif.Props.C82_values_partial",
    "Verif.Props.C82_names_partial",
    "Verif.Props.C82_expand",
    "Verif.Props.C82_faithful_partial",
    "Verif.Props.C82_no_table",
    "Verif.Props.C82_instance_name_partial",
    "Verif.Props.C82_dynamic_table_hangs_fails",
    "Verif.Props.C82_dynamic_table_fails",
    "Verif.Props.C82_lone_star_fails",
    "Verif.Props.C82_failing_handler_fails",
    "Verif.Props.C82_appended_fails",
    "Verif.Props.C82_missing_fails",
    "Verif.Props.C82_template_fails",
    "Verif.Props.C82_long_name_fails"
   ],
   "note": "Proved for all queries whose wildcards stand below tables and whose names fit the buffers, in data models whose tables have no get handler, with handlers that append no properties. Refuted outside: a wildcard at the end of a query for a row of a table with a get handler makes the provider run forever; such tables give no values to wildcards; the query * reads before its buffer; one failing handler fails a wildcard query as a whole but is left out of a partial path; appended properties push values out of the answer; a query for names that no row has succeeds if there are no rows; a query for the row template calls handlers; long names overflow a buffer."
  },
  {
   "property": "C83",
   "status": "partial",
   "theorems": [
    "Verif.Props.C83_single",
    "Verif.Props.C83_refused",
    "Verif.Props.C83_lost",
    "Verif.Props.C83_list_of_one",
    "Verif.Props.C83_query_partial",
    "Verif.Props.C83_complete_partial",
    "Verif.Props.C83_nothing_partial",
    "Verif.Props.C83_end_to_end_partial",
    "Verif.Props.C83_stale_fails",
    "Verif.Props.C83_unset_fails",
    "Verif.Props.C83_freed_fails",
    "Verif.Props.C83_use_after_free_fails",
    "Verif.Props.C83_hidden_failure_fails",
    "Verif.Props.C83_number_unset_fails"
   ],
   "note": "Single names in full. Queries are proved if the first destination gives values (values up to the first destination that fails) or if no destination gives any and the result pointer was NULL; end to end with C82 from the elements of all providers to the list of the caller. Refuted outside: a failing destination after values is reported as success with part of the values; with a pointer that was not NULL a failing first destination gives success; a first destination without values and a second with values give a freed list; the number of values is not set if the destinations cannot be found."
  },
  {
   "property": "C84",
   "status": "partial",
   "theorems": [
    "Verif.Props.C84_wanted",
    "Verif.Props.C84_all_partial",
    "Verif.Props.C84_complete_partial",
    "Verif.Props.C84_depth",
    "Verif.Props.C84_rows",
    "Verif.Props.C84_hidden_failure_fails",
    "Verif.Props.C84_error_with_list_fails",
    "Verif.Props.C84_dynamic_table_fails",
    "Verif.Props.C84_long_name_fails",
    "Verif.Props.C84_smallest_depth_fails",
    "Verif.Props.C84_nobody_fails",
    "Verif.Props.C84_not_found",
    "Verif.Props.C84_rows_lost"
   ],
   "note": "What is listed is characterised in terms of names that exist; what the caller gets is proved through the encoded messages for any number of providers, for data models without get handlers on tables and names that fit into 255 bytes. Rows in full. Refuted: only the code of the last provider is returned, so that lost answers of others are hidden and an error may come with a list; tables with get handlers are not listed and asking for them gives success without elements; long names of objects lose the dot at the end; the smallest depth is undefined; success without elements if there is no provider."
  },
  {
   "property": "C85",
   "status": "partial",
   "theorems": [
    "Verif.Props.C85_registered",
    "Verif.Props.C85_delivered",
    "Verif.Props.C85_accepted",
    "Verif.Props.C85_refused",
    "Verif.Props.C85_all_or_nothing_partial",
    "Verif.Props.C85_taken",
    "Verif.Props.C85_unregistered",
    "Verif.Props.C85_rollback_takes_others_fails",
    "Verif.Props.C85_lost_answer_fails",
    "Verif.Props.C85_tree_kept_fails",
    "Verif.Props.C85_long_name_fails"
   ],
   "note": "Success, delivery, refusal, acceptance and unregistering are proved through the router of C17 for all histories; all or nothing if no element is registered below the names of the list. Refuted outside: undoing a registration removes elements of other components below the names; an answer that is lost leaves the element at the router though the registration failed, and trying again fails; the provider's own tree keeps the elements; names of 128 to 255 bytes are refused as taken."
  },
  {
   "property": "C86",
   "status": "partial",
   "theorems": [
    "Verif.Props.C86_set_partial",
    "Verif.Props.C86_set_impossible",
    "Verif.Props.C86_refused",
    "Verif.Props.C86_set_many_partial",
    "Verif.Props.C86_get_partial",
    "Verif.Props.C86_get_many_partial",
    "Verif.Props.C86_set_then_get",
    "Verif.Props.C86_typed",
    "Verif.Props.C86_lost",
    "Verif.Props.C86_unanswered",
    "Verif.Props.C86_requester_fails",
    "Verif.Props.C86_commit_fails",
    "Verif.Props.C86_backup_requester_fails",
    "Verif.Props.C86_code_100_fails",
    "Verif.Props.C86_null_text_fails"
   ],
   "note": "Proved byte by byte through both messages. Missing: values of gigabyte size. Refuted outside: a NULL text reads through NULL at the caller or at the provider; handlers are told the provider's own name when several values are read and no name when old values are read; a call to commit gives success though no handler is called; a handler that refuses with code 100 is taken for success."
  },
  {
   "property": "C87",
   "status": "partial",
   "theorems": [
    "Verif.Props.C87_builds",
    "Verif.Props.C87_text_partial",
    "Verif.Props.C87_number_partial",
    "Verif.Props.C87_message_partial",
    "Verif.Props.C87_binary_partial",
    "Verif.Props.C87_list_partial",
    "Verif.Props.C87_absent",
    "Verif.Props.C87_topic_partial",
    "Verif.Props.C87_set_again_fails",
    "Verif.Props.C87_capitals_fails",
    "Verif.Props.C87_type_fails",
    "Verif.Props.C87_truncated_fails",
    "Verif.Props.C87_topic_again_fails",
    "Verif.Props.C87_negative_fails",
    "Verif.Props.C87_null_fails"
   ],
   "note": "Proved for fields that were not made before, for all sequences of calls. cJSON, which keeps the fields, is not part of the library and is modelled as documented; its texts are left out. Refuted outside: a field set again keeps its old value; names that differ in capitals are one field; reading another type gives success and a wrong value, or reads through NULL; a text that just does not fit loses its last character with success; a topic set twice is freed twice; a topic longer than the buffer is written behind it; a negative index gives a message without content."
  },
  {
   "property": "C88",
   "status": "partial",
   "theorems": [
    "Verif.Props.C88_unix_partial",
    "Verif.Props.C88_tcp_partial",
    "Verif.Props.C88_interface_partial",
    "Verif.Props.C88_refused",
    "Verif.Props.C88_meaning",
    "Verif.Props.C88_memory",
    "Verif.Props.C88_overflow_fails",
    "Verif.Props.C88_long_path_fails",
    "Verif.Props.C88_port_fails",
    "Verif.Props.C88_abort_fails",
    "Verif.Props.C88_inet6_fails",
    "Verif.Props.C88_interface_fails"
   ],
   "note": "Proved for paths of at most 107 bytes, for all IPv4 addresses and ports, and for interfaces; what a socket is made for is characterised for all texts. inet_pton for IPv4 is modelled as documented in glibc, for IPv6 left open. Refuted outside: longer paths are cut with success; ports wrap, and texts are port 0; a host that begins with a digit and is no address is read with success and then aborts the process; a host of 128 bytes overflows a buffer; IPv6 addresses are read depending on their first character and never printed; long interface names are cut."
  },
  {
   "property": "C89",
   "status": "partial",
   "theorems": [
    "Verif.Props.C89_add_partial",
    "Verif.Props.C89_remove_partial",
    "Verif.Props.C89_refused_partial",
    "Verif.Props.C89_lost",
    "Verif.Props.C89_rows_partial",
    "Verif.Props.C89_unanswered_fails",
    "Verif.Props.C89_number_on_failure_fails",
    "Verif.Props.C89_malformed_fails"
   ],
   "note": "Proved for plain names of ordinary length, tables without get or sync handlers, codes below 100 and handlers that give new numbers. Refuted outside: when the answer is lost the caller gets an error though the row is there; a number is stored also when adding has failed; a malformed request makes the provider use a pointer that was never set. See C81 for other names and codes."
  },
  {
   "property": "C90",
   "status": "partial",
   "theorems": [
    "Verif.Props.C90_no_new_callbacks",
    "Verif.Props.C90_ends_partial",
    "Verif.Props.C90_not_stuck_partial",
    "Verif.Props.C90_quiet_partial",
    "Verif.Props.C90_released",
    "Verif.Props.C90_awake",
    "Verif.Props.C90_safe_partial",
    "Verif.Props.C90_waiting_fails",
    "Verif.Props.C90_from_callback_fails",
    "Verif.Props.C90_hang_fails",
    "Verif.Props.C90_undelivered_fails"
   ],
   "note": "No callback begins after destroying began; at most fifteen steps remain and some thread can always go on; the callback thread never sleeps while a message is queued; nothing runs afterwards; each queued message is released once; nothing freed is used if no request is on its way and the call is not made in a callback. Refuted: waiting requests use the freed list, always; destroying in a callback uses the freed connection, always; it can hang when a callback sends after the socket was shut down; queued messages are lost."
  },
  {
   "property": "C91",
   "status": "partial",
   "theorems": [
    "Verif.Props.C91_delivery_partial",
    "Verif.Props.C91_exact_partial",
    "Verif.Props.C91_unsent_fails",
    "Verif.Props.C91_closed_fails",
    "Verif.Props.C91_damaged_fails"
   ],
   "note": "Delivery to exactly the entitled subscriptions, through the bytes; exact data if no subscription of the element has a filter. Refuted: success although nothing could be sent, always; an event for a closed handle goes to another handle's handler; a message with damaged metadata compares a name with NULL."
  },
  {
   "property": "C92",
   "status": "partial",
   "theorems": [
    "Verif.Props.C92_values_partial",
    "Verif.Props.C92_memory_partial",
    "Verif.Props.C92_pointer_partial",
    "Verif.Props.C92_overwrite_fails",
    "Verif.Props.C92_copy_fails",
    "Verif.Props.C92_other_type_fails",
    "Verif.Props.C92_null_fails",
    "Verif.Props.C92_self_fails"
   ],
   "note": "Refinement of plain variables, exact accounting of memory and references, and pointers that stay good, for every program outside five cases, which are refuted: a string over a property or object leaks it; copying a value that holds one clears the copy; the string of another type is undefined although NULL is promised; so are the bytes of a NULL string and setting a value from itself."
  },
  {
   "property": "C93",
   "status": "partial",
   "theorems": [
    "Verif.Props.C93_forever",
    "Verif.Props.C93_no_deadlock_partial",
    "Verif.Props.C93_progress_partial",
    "Verif.Props.C93_all_end_partial",
    "Verif.Props.C93_exclusion_partial",
    "Verif.Props.C93_defined_partial",
    "Verif.Props.C93_value_change_fails",
    "Verif.Props.C93_interval_fails",
    "Verif.Props.C93_close_fails",
    "Verif.Props.C93_close_client_gone_fails",
    "Verif.Props.C93_close_direct_fails",
    "Verif.Props.C93_handler_publishes_fails",
    "Verif.Props.C93_handler_registers_fails",
    "Verif.Props.C93_handler_subscribes_fails",
    "Verif.Props.C93_sync_handler_fails",
    "Verif.Props.C93_open_fails",
    "Verif.Props.C93_handler_unsubscribes_fails",
    "Verif.Props.C93_client_gone_fails",
    "Verif.Props.C93_cache_fails",
    "Verif.Props.C93_connection_fails"
   ],
   "note": "All of it for programs whose handlers call only what an order of the mutexes allows, at times when either values change or subscriptions come and go. Outside: ten deadlocks and four losses of exclusion, each shown by programs and an interleaving, among them a subscription that comes in while a watched value changes, and an event that comes in while the last handle is closed."
  },
  {
   "property": "C94",
   "status": "partial",
   "theorems": [
    "Verif.Props.C94_replies_partial",
    "Verif.Props.C94_set_partial",
    "Verif.Props.C94_others",
    "Verif.Props.C94_chain_partial",
    "Verif.Props.C94_answered_partial",
    "Verif.Props.C94_invoke_async_fails",
    "Verif.Props.C94_direct_fails",
    "Verif.Props.C94_answer_later_fails",
    "Verif.Props.C94_long_fails",
    "Verif.Props.C94_header_name_fails",
    "Verif.Props.C94_no_room_fails"
   ],
   "note": "Proved for strings of at most 510 bytes, requests that wait for their answer and go through the router, and handlers that answer before they return. Outside: longer strings are dropped though success is returned, asynchronous calls of methods and requests through private connections lose the trace, a handler that answers later leaves its trace behind, the name of the header is kept, and an array of no bytes is written outside of."
  },
  {
   "property": "C95",
   "status": "partial",
   "theorems": [
    "Verif.Props.C95_get_partial",
    "Verif.Props.C95_get_ext_partial",
    "Verif.Props.C95_set_partial",
    "Verif.Props.C95_not_confused",
    "Verif.Props.C95_nothing_else_partial",
    "Verif.Props.C95_set_refused_partial",
    "Verif.Props.C95_get_refused_fails",
    "Verif.Props.C95_set_earlier_fails",
    "Verif.Props.C95_base64_fails"
   ],
   "note": "Proved for all texts that mean a value (decimal numbers, booleans, dates, fractions in the normal range, single bytes) and for the refusal of set requests whose last parameter is unreadable; that nothing else is read is proved for strings, booleans and whole numbers. Outside: rbus_get returns success with a value without a type for an unreadable text; an unreadable text before the last parameter of a set request reaches the handler as a value without a type; BASE64 is not decoded."
  },
  {
   "property": "C96",
   "status": "partial",
   "theorems": [
    "Verif.Props.C96_told",
    "Verif.Props.C96_announced",
    "Verif.Props.C96_last_partial",
    "Verif.Props.C96_released_partial",
    "Verif.Props.C96_leak_fails",
    "Verif.Props.C96_unanswered_fails",
    "Verif.Props.C96_restart_fails"
   ],
   "note": "What calls give and what is announced is proved for all histories, through the bytes of the messages; that the last announcement is right, as long as the manager is not started again. Refuted: a session whose creation is not answered stays open though its creator has no number; after a new start of the manager the last announcement is wrong; a failing rbus_getCurrentSession leaves an object behind."
  },
  {
   "property": "C97",
   "status": "partial",
   "theorems": [
    "Verif.Props.C97_due",
    "Verif.Props.C97_once_partial",
    "Verif.Props.C97_subscribed",
    "Verif.Props.C97_nobody_else",
    "Verif.Props.C97_at_most_once",
    "Verif.Props.C97_closed_fails",
    "Verif.Props.C97_lost_fails",
    "Verif.Props.C97_name_fails",
    "Verif.Props.C97_mended",
    "Verif.Props.C97_leak_fails"
   ],
   "note": "What every publication leads to is proved for all histories (C97_due). Refuted: after rbus_closeDirect the subscription is listened for with the handle just freed; publications during the move are lost; the name told to the handler is never that of the event; each opening and closing leaves a context behind."
  },
  {
   "property": "C98",
   "status": "partial",
   "theorems": [
    "Verif.Props.C98_told",
    "Verif.Props.C98_last",
    "Verif.Props.C98_shared",
    "Verif.Props.C98_others",
    "Verif.Props.C98_null_fails"
   ],
   "note": "Proved for all careful programs: every call is defined and tells what the sheet says (C98_told), with the consequences spelled out. Refuted: the typed getters of properties, except those of strings and bytes, dereference a NULL property. Values that hold properties or objects are left out."
  },
  {
   "property": "C99",
   "status": "partial",
   "theorems": [
    "Verif.Props.C99_told",
    "Verif.Props.C99_own",
    "Verif.Props.C99_file",
    "Verif.Props.C99_cut_number",
    "Verif.Props.C99_cut_fails",
    "Verif.Props.C99_shared_fails",
    "Verif.Props.C99_stale_fails"
   ],
   "note": "Proved for all histories with a disk that takes what is written: no undefined behaviour, and every start tells exactly the list written last (C99_told, C99_own, C99_file); a file cut inside the number of connections is taken for none (C99_cut_number). Refuted: every longer cut makes all further starts read from NULL (C99_cut_fails); processes of one program remove and read each other's file (C99_shared_fails); a start neither restores nor forgets what it is told (C99_stale_fails). Names that are no strings of C are left out, and so are messages left unreleased."
  }
 ]
}