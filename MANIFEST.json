{
 "claims": [
  {
   "property": "C01",
   "status": "proved",
   "theorems": [
    "Verif.C01_roundtrip"
   ],
   "note": ""
  },
  {
   "property": "C02",
   "status": "proved",
   "theorems": [
    "Verif.C02_int_minimal"
   ],
   "note": ""
  },
  {
   "property": "C03",
   "status": "partial",
   "theorems": [
    "Verif.C03_uint64_rejected_partial",
    "Verif.C03_uint_wraps",
    "Verif.C03_refuted",
    "Verif.C03_uint_max",
    "Verif.C03_range"
   ],
   "note": "False for Go type uint: values above MaxInt64 are sent as negative numbers (C03_refuted). Proved for uint64."
  },
  {
   "property": "C04",
   "status": "partial",
   "theorems": [
    "Verif.C04_string_exact",
    "Verif.C04_list_panics",
    "Verif.C04_map_lost",
    "Verif.C04_refuted",
    "Verif.C04_lengths_partial"
   ],
   "note": "False: lengths 128..255, 32768..65535 and >= 2^31 are written but read back as negative lengths (panic for strings and lists, silently lost entries for maps). Exact for strings; every value with only readable lengths round-trips."
  },
  {
   "property": "C05",
   "status": "proved",
   "theorems": [
    "Verif.C05_conforms"
   ],
   "note": ""
  },
  {
   "property": "C06",
   "status": "proved",
   "theorems": [
    "Verif.C06_unambiguous",
    "Verif.C06_grammar_unique"
   ],
   "note": ""
  },
  {
   "property": "C07",
   "status": "proved",
   "theorems": [
    "Verif.C07_framing",
    "Verif.C07_framing_small"
   ],
   "note": ""
  },
  {
   "property": "C08",
   "status": "proved",
   "theorems": [
    "Verif.C08_chunk_size_irrelevant"
   ],
   "note": ""
  },
  {
   "property": "C10",
   "status": "proved",
   "theorems": [
    "Verif.C10_fragmentation"
   ],
   "note": ""
  },
  {
   "property": "C11",
   "status": "proved",
   "theorems": [
    "Verif.C11_messages_delimited"
   ],
   "note": ""
  },
  {
   "property": "C12",
   "status": "proved",
   "theorems": [
    "Verif.C12_decode_terminates",
    "Verif.C12_decode_consumes",
    "Verif.C12_read_terminates",
    "Verif.C12_decodeMsg_terminates"
   ],
   "note": ""
  },
  {
   "property": "C13",
   "status": "partial",
   "theorems": [
    "Verif.C13_panic_sources_partial",
    "Verif.C13_unmarshal_partial",
    "Verif.C13_witnesses",
    "Verif.C13_refuted"
   ],
   "note": "False: the decoder panics on peer-controlled bytes (C13_refuted). Proved: a panic needs a string or list length with its sign bit set, or a node, relationship or path with something else where an integer belongs (Spec.Hazard); payloads without these patterns never panic. C117 carries this to whole sessions."
  },
  {
   "property": "C14",
   "status": "partial",
   "theorems": [
    "Verif.C14_prefix_partial",
    "Verif.C14_payload_cut_partial",
    "Verif.C14_stream_cut_partial",
    "Verif.C14_refuted"
   ],
   "note": "False for a payload cut inside a string, which is silently shortened (C14_refuted). Proved for every other cut of a payload and for every cut of the framed stream."
  },
  {
   "property": "C15",
   "status": "proved",
   "theorems": [
    "Verif.C15_error_iff_unsupported",
    "Verif.C15_marshal"
   ],
   "note": ""
  },
  {
   "property": "C16",
   "status": "partial",
   "theorems": [
    "Verif.C16_nothing_sent_partial",
    "Verif.C16_refuted"
   ],
   "note": "False once the encoded part before the offending value exceeds the chunk size (C16_refuted); C16_nothing_sent_partial states exactly when nothing was sent."
  },
  {
   "property": "C24",
   "status": "proved",
   "theorems": [
    "Verif.C24_encoders_agree",
    "Verif.C24_decoders_agree",
    "Verif.C24_messages_agree"
   ],
   "note": ""
  },
  {
   "property": "C25",
   "status": "partial",
   "theorems": [
    "Verif.C25_local_partial",
    "Verif.C25_prefix_free_partial",
    "Verif.C25_refuted"
   ],
   "note": "False when the input ends inside a string (C25_refuted, same defect as C14); proved otherwise."
  },
  {
   "property": "C09",
   "status": "partial",
   "theorems": [
    "Verif.C09_all_long_strings_lost",
    "Verif.C09_two_chunks_partial",
    "Verif.C09_refuted"
   ],
   "note": "False: every string longer than 131065 bytes is lost or corrupted (C09_all_long_strings_lost). Shorter strings are transmitted whole."
  },
  {
   "property": "C17",
   "status": "proved",
   "theorems": [
    "Verif.C17_order_irrelevant",
    "Verif.C17_lookup"
   ],
   "note": ""
  },
  {
   "property": "C18",
   "status": "proved",
   "theorems": [
    "Verif.C18_unique_keys",
    "Verif.C18_last_wins"
   ],
   "note": ""
  },
  {
   "property": "C19",
   "status": "proved",
   "theorems": [
    "Verif.C19_node",
    "Verif.C19_relationship",
    "Verif.C19_unbound",
    "Verif.C19_path"
   ],
   "note": ""
  },
  {
   "property": "C20",
   "status": "proved",
   "theorems": [
    "Verif.C20_time",
    "Verif.C20_wire"
   ],
   "note": ""
  },
  {
   "property": "C21",
   "status": "partial",
   "theorems": [
    "Verif.C21_exact_partial",
    "Verif.C21_stable_partial",
    "Verif.C21_refuted"
   ],
   "note": "False near zone transitions (C21_refuted); C21_exact_partial gives the exact condition, C21_stable_partial the case without a nearby transition."
  },
  {
   "property": "C22",
   "status": "partial",
   "theorems": [
    "Verif.C22_never",
    "Verif.C22_server_product",
    "Verif.C22_server_zero",
    "Verif.C22_refuted"
   ],
   "note": "False of every duration: encoding succeeds, decoding the result always fails (C22_never). Nothing of the positive statement holds."
  },
  {
   "property": "C23",
   "status": "partial",
   "theorems": [
    "Verif.C23_point2_partial",
    "Verif.C23_point3_partial",
    "Verif.C23_never_sendable",
    "Verif.C23_refuted"
   ],
   "note": "First half proved for all points; second half false: no received point can be sent (C23_never_sendable)."
  },
  {
   "property": "C26",
   "status": "partial",
   "theorems": [
    "Verif.C26_success_partial",
    "Verif.C26_refuted"
   ],
   "note": "False: five bytes request 2^31-1 slots (C26_refuted). Bounded for messages that decode successfully."
  },
  {
   "property": "C27",
   "status": "proved",
   "theorems": [
    "Verif.C27_exact"
   ],
   "note": ""
  },
  {
   "property": "C29",
   "status": "partial",
   "theorems": [
    "Verif.C29_inverted",
    "Verif.C29_inverted_default",
    "Verif.C29_refuted",
    "Verif.C29_read_not_announced"
   ],
   "note": "False: the mode is announced exactly when it should not be (C29_inverted)."
  },
  {
   "property": "C30",
   "status": "proved",
   "theorems": [
    "Verif.C30_metadata",
    "Verif.C30_default"
   ],
   "note": ""
  },
  {
   "property": "C31",
   "status": "partial",
   "theorems": [
    "Verif.C31_pull_partial",
    "Verif.C31_discard_empty",
    "Verif.C31_protocols",
    "Verif.C31_refuted"
   ],
   "note": "False for DISCARD, whose metadata is always empty (C31_discard_empty); proved for PULL. What the versions of the protocol build is C31_protocols."
  },
  {
   "property": "C32",
   "status": "proved",
   "theorems": [
    "Verif.C32_credentials",
    "Verif.C32_message",
    "Verif.C28_handshake"
   ],
   "note": ""
  },
  {
   "property": "C28",
   "status": "proved",
   "theorems": [
    "Verif.C28_handshake",
    "Verif.C28_dial_fails",
    "Verif.C28_accepts"
   ],
   "note": ""
  },
  {
   "property": "C35",
   "status": "partial",
   "theorems": [
    "Verif.C35_aligned_partial",
    "Verif.C35_refuted"
   ],
   "note": "False: an answer with a value that the codec cannot read leaves the rest of the answers unread. Proved for servers whose answers can be decoded."
  },
  {
   "property": "C36",
   "status": "proved",
   "theorems": [
    "Verif.C36_one_open",
    "Verif.C36_begin_refused",
    "Verif.C36_begin_opens"
   ],
   "note": ""
  },
  {
   "property": "C37",
   "status": "partial",
   "theorems": [
    "Verif.C37_commit_partial",
    "Verif.C37_rollback_partial",
    "Verif.C37_begin_partial",
    "Verif.C37_closed_handle",
    "Verif.C111_success_partial",
    "Verif.C37_refuted"
   ],
   "note": "False on a network that delays answers beyond the timeout: a call that has timed out leaves its answers unread, and Commit takes one of them for its own; witness with a server that follows the protocol, which did not commit. Proved for every server and network: nil is returned only if exactly the requests were sent and the next messages read were SUCCESS, one for each; these are the answers to the requests if no earlier call failed while answers were in flight (C111)."
  },
  {
   "property": "C38",
   "status": "proved",
   "theorems": [
    "Verif.C38_silent",
    "Verif.C38_closes"
   ],
   "note": ""
  },
  {
   "property": "C39",
   "status": "partial",
   "theorems": [
    "Verif.C39_no_tx_partial",
    "Verif.C39_tx_partial",
    "Verif.C39_stuck",
    "Verif.C39_exact",
    "Verif.C39_refuted"
   ],
   "note": "False: while a transaction is open whose rollback fails, Close returns before closing the socket, every time (C39_stuck). Proved for connections without an open transaction, and with one whose rollback succeeds. C39_exact says exactly when the socket stays open, for every server."
  },
  {
   "property": "C40",
   "status": "partial",
   "theorems": [
    "Verif.C40_handle_ignored",
    "Verif.C40_closed_partial",
    "Verif.C40_refuted"
   ],
   "note": "False: the transaction's query methods ignore the handle altogether (C40_handle_ignored). Proved when the connection itself is closed."
  },
  {
   "property": "C41",
   "status": "partial",
   "theorems": [
    "Verif.C41_refused_partial",
    "Verif.C41_query_partial",
    "Verif.C41_begin_partial",
    "Verif.C41_default",
    "Verif.C41_begin_ignored",
    "Verif.C41_txQuery_ignored",
    "Verif.C41_refuted"
   ],
   "note": "False for BeginWithDatabase in versions 1/2 and for transaction queries in version 4; proved for all other operations."
  },
  {
   "property": "C42",
   "status": "partial",
   "theorems": [
    "Verif.C42_nil_partial",
    "Verif.C42_refuted"
   ],
   "note": "False: an unrecognised answer to the initialisation message closes the connection and returns nil. Proved otherwise."
  },
  {
   "property": "C43",
   "status": "partial",
   "theorems": [
    "Verif.C43_dial_partial",
    "Verif.C43_leaks",
    "Verif.C43_exact",
    "Verif.C43_refuted"
   ],
   "note": "False: FAILURE to the initialisation message leaves the socket open. Proved for failing dial, and (C43_exact) an exact description, on a network that takes what is written, of the failed attempts after which the socket is closed: those where the server answered the first message with neither SUCCESS nor FAILURE, or with FAILURE and then the RESET with neither IGNORED nor SUCCESS."
  },
  {
   "property": "C33",
   "status": "proved",
   "theorems": [
    "Verif.C33_rows",
    "Verif.C33_calls",
    "Verif.C33_only"
   ],
   "note": ""
  },
  {
   "property": "C34",
   "status": "proved",
   "theorems": [
    "Verif.C34_query",
    "Verif.C34_end",
    "Verif.C34_begin",
    "Verif.C34_init"
   ],
   "note": ""
  },
  {
   "property": "C45",
   "status": "proved",
   "theorems": [
    "Verif.C45_create",
    "Verif.C45_calls",
    "Verif.C45_bound_irrelevant",
    "Verif.C45_diverges"
   ],
   "note": "C45_diverges shows that the finiteness hypothesis is needed."
  },
  {
   "property": "C72",
   "status": "proved",
   "theorems": [
    "Verif.C72_requests"
   ],
   "note": ""
  },
  {
   "property": "C44",
   "status": "partial",
   "theorems": [
    "Verif.C44_error_partial",
    "Verif.C44_undisturbed_partial",
    "Verif.C44_merged",
    "Verif.C44_refuted"
   ],
   "note": "False: complete chunks are sent before the offending value is reached, and the next message is merged with them. An error is always returned; nothing happens when the request is shorter than a chunk."
  },
  {
   "property": "C47",
   "status": "partial",
   "theorems": [
    "Verif.C47_query_partial",
    "Verif.C47_end_partial",
    "Verif.C47_begin_partial",
    "Verif.C47_refuted",
    "Verif.C47_reset_refuted"
   ],
   "note": "False if the server closes the connection (io.EOF is passed on) and if the connection is lost while resetting after a FAILURE. Proved for queries and Begin/Commit/Rollback, for every point at which the network fails with an error."
  },
  {
   "property": "C48",
   "status": "partial",
   "theorems": [
    "Verif.C48_counters_partial",
    "Verif.C48_panics_iff",
    "Verif.C48_refuted"
   ],
   "note": "False: three accessors panic when the counter is not reported. Exact characterisation of the panics."
  },
  {
   "property": "C49",
   "status": "proved",
   "theorems": [
    "Verif.C49_innermost",
    "Verif.C49_root",
    "Verif.C49_all",
    "Verif.C49_text",
    "Verif.C49_root_text"
   ],
   "note": ""
  },
  {
   "property": "C46",
   "status": "proved",
   "theorems": [
    "Verif.C46_executes",
    "Verif.C46_serial",
    "Verif.C46_progress"
   ],
   "note": "Any number of goroutines, any calls, any schedule, and any decomposition of runQuery into atomic actions; the model's own decomposition has one network event per action. The connection is always as after the completed calls made one after the other, plus a part of at most one call in progress. Waiting goroutines can always proceed."
  },
  {
   "property": "C73",
   "status": "partial",
   "theorems": [
    "Verif.C73_exclusive_partial",
    "Verif.C73_refuted"
   ],
   "note": "False of the code. Witness: a correct version 4 server, one goroutine querying and one beginning a transaction; the query returns no rows (it took BEGIN's answer for RUN's) and Begin fails. Proved: in every schedule in which the calls that do not lock do not overlap with other calls (queries may overlap with each other), all calls are as if made one after the other."
  },
  {
   "property": "C50",
   "status": "partial",
   "theorems": [
    "Verif.C50_conflict_partial",
    "Verif.C50_refuted"
   ],
   "note": "False: WithHostPort with an empty host and port 0 before a connection string (or an empty connection string) is not noticed. Proved for every non-blank pair, in any order and with any other options."
  },
  {
   "property": "C51",
   "status": "proved",
   "theorems": [
    "Verif.C51_invalid",
    "Verif.C51_succeeds_iff"
   ],
   "note": "Exact characterisation of success without a connection string."
  },
  {
   "property": "C52",
   "status": "partial",
   "theorems": [
    "Verif.C52_connection_string_partial",
    "Verif.C101_config",
    "Verif.C52_never",
    "Verif.C52_refuted"
   ],
   "note": "False: the connection string made from the options lacks tls=, so WithTLS never gives a TLS connection (C52_never). Proved for connection strings."
  },
  {
   "property": "C53",
   "status": "partial",
   "theorems": [
    "Verif.C53_settings",
    "Verif.C101_config",
    "Verif.C53_ignored",
    "Verif.C53_refuted"
   ],
   "note": "False: both options are ignored: C53_ignored shows that leaving them out changes nothing, for every option list. C53_settings gives the timeout and chunk size that connections do have."
  },
  {
   "property": "C54",
   "status": "partial",
   "theorems": [
    "Verif.C54_credentials_iff",
    "Verif.C54_refuted"
   ],
   "note": "False for names with reserved characters (not escaped). C54_credentials_iff: exactly the plain ones arrive unchanged."
  },
  {
   "property": "C55",
   "status": "partial",
   "theorems": [
    "Verif.C55_new_driver",
    "Verif.C55_options",
    "Verif.C55_connection_string_partial",
    "Verif.C55_refuted"
   ],
   "note": "False: WithRouting followed by a connection string is accepted and routing is off. With a connection string, routing is on exactly if +routing occurs anywhere in it. Without one, exactly if WithRouting was given. NewDriver refuses exactly the routing clients."
  },
  {
   "property": "C74",
   "status": "proved",
   "theorems": [
    "Verif.C74_goodbye",
    "Verif.C74_succeeds"
   ],
   "note": ""
  },
  {
   "property": "C75",
   "status": "proved",
   "theorems": [
    "Verif.C75_sent",
    "Verif.C75_refused"
   ],
   "note": ""
  },
  {
   "property": "C76",
   "status": "proved",
   "theorems": [
    "Verif.C76_shown"
   ],
   "note": "Stated for the metadata as sent on the wire; repeated keys: the last one counts."
  },
  {
   "property": "C77",
   "status": "partial",
   "theorems": [
    "Verif.C77_exact",
    "Verif.C77_go_partial",
    "Verif.C77_refuted"
   ],
   "note": "False: with Go's net package the probing read times out before it looks at the connection, so a connection closed by the server is reported as open. C77_exact characterises the answer for any network behaviour."
  },
  {
   "property": "C78",
   "status": "partial",
   "theorems": [
    "Verif.C78_available_partial",
    "Verif.C78_keys",
    "Verif.C78_refuted"
   ],
   "note": "False for versions 3 and 4, where the key is t_first. Proved for versions 1 and 2, and for the key names of all versions."
  },
  {
   "property": "C56",
   "status": "proved",
   "theorems": [
    "Verif.C56_taken_over",
    "Verif.C56_nothing",
    "Verif.C56_cases"
   ],
   "note": "refreshClusterInfo with the answer of the overview procedure as an arbitrary value or error; the specification describes rows of both formats separately"
  },
  {
   "property": "C67",
   "status": "proved",
   "theorems": [
    "Verif.C67_fifo",
    "Verif.C67_fifo_of_slice"
   ],
   "note": "slices with shared backing arrays and arbitrary growth of append; against a list specification"
  },
  {
   "property": "C79",
   "status": "proved",
   "theorems": [
    "Verif.C79_accepted",
    "Verif.C79_timeout",
    "Verif.C79_tls",
    "Verif.C79_semicolon"
   ],
   "note": "plain: no control or escape characters; a duration that overflows 64-bit nanoseconds is outside the claim"
  },
  {
   "property": "C59",
   "status": "proved",
   "theorems": [
    "Verif.C59",
    "Verif.C59_open"
   ],
   "note": "All interleavings at the level of single pool actions, restarts included; assumes that the random ids of connections do not collide."
  },
  {
   "property": "C60",
   "status": "proved",
   "theorems": [
    "Verif.C60"
   ],
   "note": "All interleavings, restarts included; assumes that the random ids do not collide."
  },
  {
   "property": "C61",
   "status": "proved",
   "theorems": [
    "Verif.C61",
    "Verif.C61_live"
   ],
   "note": "Any pool state and any interference by other calls: the borrowed connection was validated with a positive answer by this very call. C61_live: connections as modelled in Conn, with users who do anything to the connections in their hands."
  },
  {
   "property": "C62",
   "status": "partial",
   "theorems": [
    "Verif.C62_partial",
    "Verif.C62_refuted"
   ],
   "note": "False when a pool is stopped and started again while connections are lent. Proved for every history without a restart."
  },
  {
   "property": "C64",
   "status": "partial",
   "theorems": [
    "Verif.C64_partial",
    "Verif.C64_refuted"
   ],
   "note": "False: after a restart with connections lent the maximum is exceeded. The minimum and maximum are proved as far as stated in C64_partial."
  },
  {
   "property": "C57",
   "status": "proved",
   "theorems": [
    "Verif.C57"
   ],
   "note": "All interleavings of borrows, reclaims, refreshes and Stop; any changes of the cluster, any answers of the servers. A stored string that equals a reported address is used as it is."
  },
  {
   "property": "C58",
   "status": "partial",
   "theorems": [
    "Verif.C58_partial",
    "Verif.C58_refuted"
   ],
   "note": "False if a server reports an address that equals a stored connection string with credentials. Otherwise proved for every history, at every moment at which the mutex is free."
  },
  {
   "property": "C63",
   "status": "partial",
   "theorems": [
    "Verif.C63_partial",
    "Verif.C63_refuted"
   ],
   "note": "False: a connection that is still open is forgotten but not closed. Proved: an undisturbed successful Stop empties both queues, and each idle connection was found open or was closed."
  },
  {
   "property": "C65",
   "status": "partial",
   "theorems": [
    "Verif.C65_kept",
    "Verif.C65_refuted"
   ],
   "note": "False: nothing is ever marked for deletion, and a refresh leaves every idle connection in its queue (C65_kept), so connections to departed servers are lent."
  },
  {
   "property": "C66",
   "status": "partial",
   "theorems": [
    "Verif.C66_next_partial",
    "Verif.C66_even",
    "Verif.C66_no_panic_partial",
    "Verif.C66_refuted"
   ],
   "note": "False: after a refresh that shortens an address list the index is out of range and Reclaim panics. Proved: round robin while the index is in range, an even distribution by Start for every cluster and pool size, and no panics in histories in which no list becomes shorter."
  },
  {
   "property": "C69",
   "status": "partial",
   "theorems": [
    "Verif.C69_partial",
    "Verif.C69_refuted",
    "Verif.C69_stop_refuted"
   ],
   "note": "False: borrowers write both maps while holding the mutex for reading only; Stop takes no lock. Proved for all schedules without Stop: every race is between two borrowing calls and about one of the two maps; everything else is free of races."
  },
  {
   "property": "C68",
   "status": "partial",
   "theorems": [
    "Verif.C68_partial",
    "Verif.C68_routing_partial",
    "Verif.C68_refuted"
   ],
   "note": "False for the routing pool: Reclaim does not roll back, and the next borrower finds the transaction open. Proved for the routing pool whose users end their transactions first, and for the pool without routing as long as the pool library passivates what is returned."
  },
  {
   "property": "C70",
   "status": "proved",
   "theorems": [
    "Verif.C70",
    "Verif.C70_first",
    "Verif.C70_new",
    "Verif.C70_shared",
    "Verif.C70_shared_refuses"
   ],
   "note": "Any behaviour of the pool library. C70_shared: any interleaving of calls by goroutines."
  },
  {
   "property": "C71",
   "status": "proved",
   "theorems": [
    "Verif.C71_open",
    "Verif.C71_open_succeeds",
    "Verif.C71_validate",
    "Verif.C71_passivate",
    "Verif.C71_activate",
    "Verif.C71_destroy",
    "Verif.C71_refuses",
    "Verif.C71_reclaim"
   ],
   "note": "Any behaviour of the pool library and of the server."
  },
  {
   "property": "C80",
   "status": "partial",
   "theorems": [
    "Verif.C80_atomic_partial",
    "Verif.C80_refuted"
   ],
   "note": "False: a failure in a transaction makes the driver send RESET, which aborts the transaction at the server, but the handle stays open; the next statement run through it is permanent without Commit. Proved for every server with decodable answers and every history in which statements use the open transaction's handle and no failure is reported inside a transaction before the last call."
  },
  {
   "property": "C81",
   "status": "partial",
   "theorems": [
    "Verif.C81_rollback_partial",
    "Verif.C81_stuck",
    "Verif.C81_refuted"
   ],
   "note": "False: once a failure was reported while a transaction was open, every later Begin, Commit, Rollback, MakeIdle and Close fails, for every continuation (C81_stuck). Proved for histories without such a failure."
  },
  {
   "property": "C82",
   "status": "partial",
   "theorems": [
    "Verif.C82_complete_partial",
    "Verif.C82_negative",
    "Verif.C82_refuted"
   ],
   "note": "False for negative sizes: every negative size is accepted and gives a pool without connections, even if the cluster cannot be reached (C82_negative). Proved for every size that is not negative."
  },
  {
   "property": "C83",
   "status": "proved",
   "theorems": [
    "Verif.C83_address",
    "Verif.C83_question"
   ],
   "note": "All clusters and interleavings."
  },
  {
   "property": "C84",
   "status": "partial",
   "theorems": [
    "Verif.C84_stopped_partial",
    "Verif.C84_refuted"
   ],
   "note": "False: a call of Reclaim that had found the pool running puts its connection back after Stop has drained the queues, and the stopped pool lends it (the same happens with a refresh in progress). Proved if no call is in progress when Stop is called and no refresh or start begins before it returns; Borrow, Reclaim and Stop may overlap with it."
  },
  {
   "property": "C85",
   "status": "proved",
   "theorems": [
    "Verif.C85_closed",
    "Verif.C85_open"
   ],
   "note": "All clusters and interleavings; C85_open covers the opening, also one that fails."
  },
  {
   "property": "C86",
   "status": "partial",
   "theorems": [
    "Verif.C86_unreachable_partial",
    "Verif.C86_leak",
    "Verif.C86_refuted"
   ],
   "note": "False: Start returns the error without closing what it has created; opening never closes a connection made for lending, so all of them leak (C86_leak). Proved if already the first connection cannot be made."
  },
  {
   "property": "C87",
   "status": "partial",
   "theorems": [
    "Verif.C87_partial",
    "Verif.C87_refuted"
   ],
   "note": "False: if a dead connection in front of the queue returns an error when it is closed, Borrow returns that error although healthy connections are idle. Proved if the idle connections of the kind can be closed without error. No second Start. Ids of connections are assumed to differ."
  },
  {
   "property": "C88",
   "status": "proved",
   "theorems": [
    "Verif.C88_progress",
    "Verif.C88_finish",
    "Verif.C88_loops"
   ],
   "note": "All clusters, histories and schedulers; the pool is not started a second time (the driver never does). Ids of connections are assumed to differ. C88_loops: the bound on loop rounds in the model is never reached."
  },
  {
   "property": "C89",
   "status": "partial",
   "theorems": [
    "Verif.C89_driver",
    "Verif.C89_pool",
    "Verif.C89_string",
    "Verif.C89_unique",
    "Verif.C89_members",
    "Verif.C89_asking_partial",
    "Verif.C89_asking_refuted"
   ],
   "note": "Proved for connections without pool, pools without routing, and the connections a routing pool lends. Connections for asking the cluster: false if a part of the configuration contains the text +routing (C89_asking_refuted, password p+routing), which the routing pool removes from the whole connection string; proved otherwise."
  },
  {
   "property": "C90",
   "status": "partial",
   "theorems": [
    "Verif.C90_connection",
    "Verif.C90_pool",
    "Verif.C90_routing_refuted"
   ],
   "note": "Proved for connections and pools without routing. Members of a routing pool are connected to without TLS (C90_routing_refuted)."
  },
  {
   "property": "C91",
   "status": "proved",
   "theorems": [
    "Verif.C91_refuses",
    "Verif.C91_settings"
   ],
   "note": "All connection strings with plain parts, all file systems and networks."
  },
  {
   "property": "C92",
   "status": "partial",
   "theorems": [
    "Verif.C92_tcp_partial",
    "Verif.C92_refuted"
   ],
   "note": "Proved without TLS. With TLS the timeout is not used for connecting (C92_refuted)."
  },
  {
   "property": "C93",
   "status": "proved",
   "theorems": [
    "Verif.C93_prints",
    "Verif.C93_quiet",
    "Verif.C93_level"
   ],
   "note": "All sequences of calls. Formatting by fmt is outside the model."
  },
  {
   "property": "C94",
   "status": "proved",
   "theorems": [
    "Verif.C94_shows",
    "Verif.C94_reads"
   ],
   "note": "All byte strings."
  },
  {
   "property": "C95",
   "status": "partial",
   "theorems": [
    "Verif.C95_kind",
    "Verif.C95_plain",
    "Verif.C95_error",
    "Verif.C95_never",
    "Verif.C95_refuted"
   ],
   "note": "The kinds of pools are proved. The claim about errors is false: with routing, an error comes with a nil pointer in an interface value that is not nil, and whose methods panic (C95_refuted, C95_never)."
  },
  {
   "property": "C96",
   "status": "partial",
   "theorems": [
    "Verif.C96_partial",
    "Verif.C96_reclaim",
    "Verif.C96_refuted"
   ],
   "note": "False: Open waits for a connection while it holds the lock, so that Close waits until somebody gives a connection back (C96_refuted). Proved as long as the library need not wait."
  },
  {
   "property": "C97",
   "status": "proved",
   "theorems": [
    "Verif.C97_asks",
    "Verif.C97_only"
   ],
   "note": "For one fetch of the members that is not interrupted; its connection is nobody else's (C60, C85)."
  },
  {
   "property": "C98",
   "status": "partial",
   "theorems": [
    "Verif.C98_same",
    "Verif.C98_below_partial",
    "Verif.C98_password",
    "Verif.C98_parameters",
    "Verif.C98_refuted"
   ],
   "note": "False at the level trace-bytes: the encoder of versions 2 to 4 prints its buffer when it sends a chunk, so the password (C98_password, for user and password up to 65000 bytes), the statement and the strings in the parameters (C98_parameters, if RUN fits into a chunk) are in the log. Proved for all other levels; that logging changes nothing is proved for all levels (C98_same)."
  },
  {
   "property": "C99",
   "status": "partial",
   "theorems": [
    "Verif.configErrorText_iff",
    "Verif.C99_shown",
    "Verif.C99_fragment",
    "Verif.C99_user",
    "Verif.C99_slash",
    "Verif.C99_client",
    "Verif.C99_plain_partial",
    "Verif.C99_refuted"
   ],
   "note": "False: the error of net/url shows the whole string, and the client puts user and password into it without escaping, so that e.g. every password with a letter and then a '/' is shown (C99_client). Proved for users and passwords with characters that a URL may have there (C99_plain_partial)."
  },
  {
   "property": "C100",
   "status": "proved",
   "theorems": [
    "Verif.C100_own",
    "Verif.C100_gone",
    "Verif.C100_make"
   ],
   "note": "All histories; the library is arbitrary."
  },
  {
   "property": "C101",
   "status": "partial",
   "theorems": [
    "Verif.C101_any",
    "Verif.C101_accepted",
    "Verif.C101_config",
    "Verif.C101_client_partial",
    "Verif.C101_ipv6",
    "Verif.C101_ipv6_port",
    "Verif.C101_zone",
    "Verif.C101_refuted"
   ],
   "note": "Proved for connections. For clients it is false: NewClient splits the host at ':' and refuses every connection string with an IPv6 address (C101_ipv6, C101_refuted). Proved for clients with other hosts."
  },
  {
   "property": "C102",
   "status": "proved",
   "theorems": [
    "Verif.C102_connect",
    "Verif.C102_only",
    "Verif.C102_session",
    "Verif.C102_mode",
    "Verif.C102_commit"
   ],
   "note": "The requests of each call are listed in Spec/MaySend. Parameters must be supported and fit a chunk: a call that fails to encode its parameters may leave a partial message (C16, C44). That no access mode is ever sent means that the mode given to Open has no effect (see also C29)."
  },
  {
   "property": "C103",
   "status": "partial",
   "theorems": [
    "Verif.C103_partial",
    "Verif.C103_lost",
    "Verif.C103_activate",
    "Verif.C103_destroy",
    "Verif.C103_refuted"
   ],
   "note": "False of the code: DestroyObject and ActivateObject close a connection only if ValidateOpen says that it is open, so when the server has closed its side the socket is dropped without being closed (C103_activate, C103_destroy, C103_refuted). Proved when the probing read does not return EOF: if the server does not close its side, and with Go's net package for every plain TCP connection (C77); the loss concerns TLS connections that have read close_notify."
  },
  {
   "property": "C104",
   "status": "proved",
   "theorems": [
    "Verif.C104_reports",
    "Verif.C104_speaks"
   ],
   "note": "The part about the messages (C104_speaks) is for calls whose parameters are supported and fit a chunk, like C102."
  },
  {
   "property": "C105",
   "status": "partial",
   "theorems": [
    "Verif.C105_result_partial",
    "Verif.C105_rows_partial",
    "Verif.C105_machine_partial",
    "Verif.C105_refuted"
   ],
   "note": "False of the code: after a failure inside a transaction the driver's RESET drops the transaction at the server, and a later statement through the handle succeeds without seeing the earlier statements of the transaction (C105_refuted). Proved for every database, every server with decodable answers and every history in which statements use the open transaction's handle and no failure is reported inside a transaction before the last call; C105_machine_partial is the case of a database with a state."
  },
  {
   "property": "C106",
   "status": "partial",
   "theorems": [
    "Verif.C106_partial",
    "Verif.C106_realm_lost",
    "Verif.C106_refuted"
   ],
   "note": "False of the code: BuildAuthTokenBasicWithRealm adds the realm only when it is empty (init.go 31), so a realm that is given is never sent (C106_realm_lost). Proved for Kerberos tokens and for basic authentication without realm."
  },
  {
   "property": "C107",
   "status": "proved",
   "theorems": [
    "Verif.C107_answers",
    "Verif.C107_failures",
    "Verif.C107_nothing_else",
    "Verif.C107_open",
    "Verif.C107_commit",
    "Verif.C107_rollback",
    "Verif.C107_rows"
   ],
   "note": "For every server, history and formatting function; the lines are those printed at the level in force. Formatting itself (fmt) is a parameter."
  },
  {
   "property": "C108",
   "status": "partial",
   "theorems": [
    "Verif.C108_partial",
    "Verif.C108_last_partial",
    "Verif.C108_only",
    "Verif.C108_refuted",
    "Verif.C108_chunks_refuted"
   ],
   "note": "False of the code: version 1 shows no bytes (C108_refuted), and of a message of several chunks only the last is shown (C108_chunks_refuted). Proved that versions 2-4 show every message of one chunk (C108_partial, also if writing fails) and, if writing does not fail, the last chunk of the others unless it is full (C108_last_partial); and, of every version and level, that nothing is shown but the last chunks of messages written, in order (C108_only)."
  },
  {
   "property": "C109",
   "status": "partial",
   "theorems": [
    "Verif.C109_partial",
    "Verif.C109_silent",
    "Verif.C109_create_partial",
    "Verif.C109_deadline",
    "Verif.C109_stops",
    "Verif.C109_transcript",
    "Verif.C109_same",
    "Verif.C109_same_create",
    "Verif.C109_refuted"
   ],
   "note": "False of the code: the deadline is set anew before every Read, so a server that sends byte after byte keeps a call waiting for any time (C109_refuted). Proved that every write and read has the deadline (C109_deadline), that a call stops at the first operation that fails (C109_stops), that it takes at most the timeout for each write and each byte that arrives, and once more (C109_partial), so with a silent server at most the timeout for each write and once more (C109_silent), and the same for opening a connection without TLS and with a timeout other than 0 (C109_create_partial). C109_same and C109_transcript tie the operations to the calls, the trace and the server."
  },
  {
   "property": "C110",
   "status": "partial",
   "theorems": [
    "Verif.C110_partial",
    "Verif.C110_refuted"
   ],
   "note": "False of the code: the handshake reads the version number with one Read, so if it arrives in two segments the session is refused (C110_refuted). Proved if the version number arrives in one piece; everything else may be divided in any way."
  },
  {
   "property": "C111",
   "status": "partial",
   "theorems": [
    "Verif.C111_partial",
    "Verif.C111_success_partial",
    "Verif.C111_refuted",
    "Verif.C111_pool_refuted"
   ],
   "note": "False of the code: after a timeout the connection stays in use with the answer still to come, and the next statement returns the rows of the one before (C111_refuted); through the pool, the next user gets them (C111_pool_refuted). Proved for every server, every delay and every history in which every call so far succeeded or failed with nothing in flight: each statement returns an error or its own result, and the messages exchanged are those without the delays."
  },
  {
   "property": "C112",
   "status": "partial",
   "theorems": [
    "Verif.C112_partial",
    "Verif.C112_given_up",
    "Verif.C112_open",
    "Verif.C112_refuted"
   ],
   "note": "False of the code: if no answer to RESET arrives in time, the call returns an error and the connection stays in use (C112_refuted); and if a transaction is open, Close rolls back first, which may fail in the same way and then leaves the connection open. Proved, for every network and server: the messages of every call (C112_partial) and of the opening of a session (C112_open) follow the recovery protocol (Spec/Recover.lean), and a call returns in one of its final stages; if the network takes what is written, no transaction is open and RESET is refused, the connection is closed, with at most GOODBYE before (C112_given_up). A call for which the model runs out of fuel (a server that keeps refusing) is covered by the order of its messages only."
  },
  {
   "property": "C113",
   "status": "partial",
   "theorems": [
    "Verif.C113_partial",
    "Verif.C113_refuted"
   ],
   "note": "False of the code: the version number is read with one Read, so a network that divides its four bytes makes CreateBoltConn fail (C113_refuted). Proved for every pair of networks that deliver the version in one piece, by a simulation between the two connections that every call keeps."
  },
  {
   "property": "C114",
   "status": "partial",
   "theorems": [
    "Verif.C114_partial",
    "Verif.C114_fine",
    "Verif.C114_refuted"
   ],
   "note": "False of the code for chunk size 0, with which nothing that is sent can be understood (C114_refuted), and for long requests with strings longer than a chunk (C09). Proved for every other chunk size: requests of at most 65535 bytes with any size from 1 on, longer ones with sizes from 8 on that are not below the length of a string (C114_partial; C114_fine states the latter in terms of the arguments of the calls). The simulation is that of C113, with the contents of the messages in place of their bytes."
  },
  {
   "property": "C115",
   "status": "partial",
   "theorems": [
    "Verif.C115_partial",
    "Verif.C115_account_partial",
    "Verif.C115_refuted"
   ],
   "note": "False of the code: credentials with a character that has a meaning in URLs, such as a password 'a/b', are accepted by NewClient, but no connection can be opened (C115_refuted). Proved for plain credentials, a version number that arrives in one piece, and servers whose answers can be decoded: for histories without a failure inside a transaction with the usual meaning of transactions (C115_partial), and for every history with the account of C116 (C115_account_partial)."
  },
  {
   "property": "C116",
   "status": "proved",
   "theorems": [
    "Verif.C116",
    "Verif.C116_result",
    "Verif.C116_control"
   ],
   "note": "The server model (Spec/TxServer.lean) follows the protocol and keeps a ledger; the account (Spec.account) does not look at the server or at the state of the connection. Hypotheses: the answers can be decoded (Understood), the arguments can be encoded in the chunk size in use (Fine, cf. C09), and no statement is itself BEGIN, COMMIT or ROLLBACK (PlainCall)."
  },
  {
   "property": "C117",
   "status": "proved",
   "theorems": [
    "Verif.C117",
    "Verif.C117_connect",
    "Verif.C117_safe"
   ],
   "note": "Spec.Poisoned says that the bytes that arrived contain, just before what is still unread, a complete message (Framed) that makes the decoder panic and is hazardous (Spec.Hazard). Panics inside logging or net/url are outside the model of a connection; the panics of the pools are C48, C66 and C95."
  },
  {
   "property": "C118",
   "status": "proved",
   "theorems": [
    "Verif.C118",
    "Verif.C118_result",
    "Verif.C118_quiet"
   ],
   "note": "For every history of the pool without routing in which users and library keep to Spec.Proper (as in C68_partial; the library is not part of the repository), for servers as in C116, sendable calls and statements that are not themselves BEGIN, COMMIT or ROLLBACK. C118_quiet needs no proper history. Nothing is claimed about the routing pool, which hands on open transactions (C68_refuted)."
  },
  {
   "property": "C119",
   "status": "proved",
   "theorems": [
    "Verif.C119",
    "Verif.C119_free",
    "Verif.C119_undisturbed",
    "Verif.C119_panics"
   ],
   "note": "The labels say which fields of the connection and of the transaction every action accesses; fields that are set before anybody else has the connection (protocol, id, the socket itself) and the bytes on the wire are not among them. What the messages on the wire mean when calls overlap is C73."
  },
  {
   "property": "C120",
   "status": "proved",
   "theorems": [
    "Verif.C120",
    "Verif.C120_result",
    "Verif.C120_plain",
    "Verif.C57_live",
    "Verif.C120_attempts"
   ],
   "note": "Hypotheses: users are considerate (otherwise C68_refuted), no second Start (otherwise C84), the random ids of connections differ (otherwise C61), the chunk size is never set below 28 (the overview statement must fit into a chunk), names and passwords in the strings used fit into a message, servers as in C116. A connection made while a server was leader goes on being lent for writing after the leader has changed (C65); the claim is about the overview that was last when the connection was made."
  },
  {
   "property": "C121",
   "status": "proved",
   "theorems": [
    "Verif.C121",
    "Verif.C121_up",
    "Verif.C121_lost",
    "Verif.C121_result",
    "Verif.C121_doubt"
   ],
   "note": "Servers as in C116 which accept every write and whose permanent statements stay (Spec.Durable); sendable calls and statements that are not themselves BEGIN, COMMIT or ROLLBACK. The network loses the connection once and for good; a write that fails although a later one succeeds, and delays beyond the timeout (C111), are outside of this claim. C121_doubt shows that the remaining doubt is real: two losses that the driver cannot tell apart leave different permanent statements."
  },
  {
   "property": "C122",
   "status": "proved",
   "theorems": [
    "Verif.C122",
    "Verif.C122_lost",
    "Verif.C122_result",
    "Verif.C122_quiet"
   ],
   "note": "For histories in which users and library keep to Spec.Proper (as in C68_partial and C118), servers and networks as in C121 (each connection with its own moment and manner of loss), sendable calls and statements that are not themselves BEGIN, COMMIT or ROLLBACK. C122_quiet needs no proper history. That a lost connection is lent at all is not excluded (C77)."
  },
  {
   "property": "C123",
   "status": "partial",
   "theorems": [
    "Verif.C123_exact",
    "Verif.C123_unique",
    "Verif.C123_partial",
    "Verif.C123_record",
    "Verif.C123_markers",
    "Verif.C123_refuted"
   ],
   "note": "False: there is no limit. A well-formed record of k+4 bytes takes k+3 nested calls (C123_record), and k list markers take k+1 (C123_markers), so a server can make the recursion as deep as it likes; Go ends the process when a goroutine's stack exceeds its limit. Proved: a message with a meaning takes exactly as many nested calls as it has levels (C123_exact), and any input at most one more than it has bytes (C123_partial)."
  },
  {
   "property": "C124",
   "status": "partial",
   "theorems": [
    "Verif.C124_partial",
    "Verif.C124_refuted"
   ],
   "note": "False: if the server sends a row that the codec cannot read, the rest of that answer stays unread on the connection, nothing between two users notices it, and the answers shift by one from user to user until a user's query gets the row of the previous user's statement without any error (C124_refuted: four users, reliable network, server that follows the protocol). Proved if the codec can read all that the server answers; histories, calls and statements as in C118."
  },
  {
   "property": "C125",
   "status": "proved",
   "theorems": [
    "Verif.C125",
    "Verif.C125_lost",
    "Verif.C125_result"
   ],
   "note": "The analogue of C122 for the routing pool, with the server each connection belongs to (C120). Users return connections without open transactions (Spec.Considerate, as in C68 and C120), connection ids differ, the pool is not started twice; servers and networks as in C121 (each connection with its own moment and manner of loss); sendable calls and statements that are not themselves BEGIN, COMMIT or ROLLBACK. That a lost connection is lent at all is not excluded (C77)."
  },
  {
   "property": "C126",
   "status": "partial",
   "theorems": [
    "Verif.C126_partial",
    "Verif.C126_again",
    "Verif.C126_errors",
    "Verif.C126_refuted"
   ],
   "note": "False: points that were received cannot be sent (C126_refuted, see C23), and strings above 65535 bytes are not sent whole (see C09). Proved for every value without points and without such strings: it is marshalled without error, the message means the same value in the format, and this client's own decoder gives back the very same value if it can read such lengths (C126_again; see C04). C126_errors: among received values, those with points are exactly the ones that Marshal refuses. Received means: a tree that the wire format can express has the value as its meaning; offsets in the time-zone database fit 32 bits."
  },
  {
   "property": "C127",
   "status": "proved",
   "theorems": [
    "Verif.C127",
    "Verif.C127_length",
    "Verif.C127_message"
   ],
   "note": "Minimal among all encodings that the wire format allows for the same tree (Spec.Enc), not only among those that the client could produce. Restrictions: unsigned integers up to MaxInt64 (others are refused, see C03), and for the whole message strings of up to 65535 bytes (see C09)."
  },
  {
   "property": "C128",
   "status": "partial",
   "theorems": [
    "Verif.C128_partial",
    "Verif.C128_mixed",
    "Verif.C128_refuted"
   ],
   "note": "False: after a write that failed part of the way the connection stays in use, and the bytes of the next message become the missing part of the one that was cut off (C128_refuted; C128_mixed shows a query that returns a row without an error although the server has never got its statement, while a statement whose call had failed was run with a parameter that the caller never gave). Proved for networks where nothing more arrives after a failed write: the messages that the server gets are a first part of those the calls have written."
  },
  {
   "property": "C129",
   "status": "proved",
   "theorems": [
    "Verif.C129",
    "Verif.C129_unique",
    "Verif.C129_host",
    "Verif.C129_slash"
   ],
   "note": "For every accepted connection string, whatever its parts contain: address, user and password are what the part between // and the next /, ? or # stands for (C129), and the string determines them (C129_unique). C129_host: exactly which addresses without user, escapes and brackets are accepted. C129_slash shows what follows from this for a password with a slash that was not escaped. net/url is modelled in Model/Url."
  },
  {
   "property": "C130",
   "status": "partial",
   "theorems": [
    "Verif.C130_partial",
    "Verif.C130_result_partial",
    "Verif.C130_doubt_partial",
    "Verif.C130_refuted"
   ],
   "note": "Proved for histories in which no call before the last one failed while an answer was still on its way (Spec.Timely): the account of the calls is right (C130_partial), results are those of the database (C130_result_partial), and a last call that times out leaves only its own effect in doubt, all of it or nothing (C130_doubt_partial). After a call that timed out the claim is false (C130_refuted): the connection stays in use, the next statement takes the late answer for its own and reports success though the database refused it. Servers as in C121, sendable calls, statements that are not themselves BEGIN, COMMIT or ROLLBACK."
  },
  {
   "property": "C131",
   "status": "partial",
   "theorems": [
    "Verif.C131_partial",
    "Verif.C131_open_partial",
    "Verif.C131_refuted"
   ],
   "note": "Proved for credentials and file names without characters that have a meaning in connection strings (Spec.PlainClient) and servers whose version number arrives in one piece; with the password \"a/b\" no connection can be opened (C131_refuted, see C54 and C115). Users and library keep to Spec.Proper, calls are sendable and statements are not themselves BEGIN, COMMIT or ROLLBACK, as in C118. The statements of other connections are not part of the state of the database."
  },
  {
   "property": "C132",
   "status": "proved",
   "theorems": [
    "Verif.C132_keys",
    "Verif.C132_sent",
    "Verif.C132_nil"
   ],
   "note": "The iteration order of Go maps is any permutation of the entries, chosen separately for each loop. C132_sent is about maps of values as in C01 (Marshal and Unmarshal). The methods are modelled in Model/Params; nil slices of rows are not told from empty ones."
  },
  {
   "property": "C133",
   "status": "partial",
   "theorems": [
    "Verif.C133_partial",
    "Verif.C133_refuted",
    "Verif.C133_collision"
   ],
   "note": "False for two pools: each protects the generator with its own mutex only (C133_refuted: users of both return broken connections at the same moment). Proved for the calls of one pool, for all schedules without Stop and further calls of Start. C133_collision shows what is at stake: with an id that was given twice, one connection is lent to two users. What a damaged generator returns is outside the model."
  },
  {
   "property": "C134",
   "status": "partial",
   "theorems": [
    "Verif.C134_partial",
    "Verif.C134_kept",
    "Verif.C134_starved",
    "Verif.C134_refuted"
   ],
   "note": "Reclaim replaces a broken connection if it cannot be closed (C134_partial, for a call that is not interrupted). If it can be closed, it is put back into the queue broken and closed, and no new one is made (C134_kept). Once no connection of a kind is idle or lent, borrowing one never succeeds again without Stop and Start, for all continuations (C134_starved); C134_refuted is a pool of two connections, one of which breaks while it is lent."
  },
  {
   "property": "C135",
   "status": "partial",
   "theorems": [
    "Verif.C135_partial",
    "Verif.C135_refuted"
   ],
   "note": "Proved if Stop returns no error, for all histories before. False otherwise: Stop gives up at the first connection that cannot be closed and leaves the rest in the queue, and Start adds a full share to it (C135_refuted). That connections which are still open are dropped by Stop without being closed is C63; connections that are lent while the pool is restarted are C62."
  },
  {
   "property": "C136",
   "status": "partial",
   "theorems": [
    "Verif.C136_partial",
    "Verif.C136_once",
    "Verif.C136_refuted"
   ],
   "note": "That no connection is idle twice, lent twice, or idle while lent is proved for all histories (C136_once). That none gets lost: proved for all histories of interleaved calls without Start and Stop in which no connection that was found to be dead is found to be alive later. False otherwise: a borrow takes a connection that failed its check out of the queue and calls removeConn, which checks again, and closes it only if it fails again (C136_refuted). That Stop drops open connections without closing them is C63."
  },
  {
   "property": "C137",
   "status": "proved",
   "theorems": [
    "Verif.C137",
    "Verif.C137_round"
   ],
   "note": "Proved for every state that a history without Start and Stop reaches and in which the mutex is free (C88 says when it is), and any number of turns. What happens when connections are not healthy is C87, C61 and C134."
  }
 ]
}
