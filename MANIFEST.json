{
 "claims": [
  {
   "property": "C01",
   "status": "partial",
   "theorems": [
    "Nora.C01_roundtrip_partial",
    "Nora.C01_ecdh_reply_refuted"
   ],
   "note": "Proved for every message except KEX_ECDH_REPLY; for KEX_ECDH_REPLY the claim is false of the code (ecdh.rs:82 tests the wrong variable, so no byte string parses to one), proved as C01_ecdh_reply_refuted."
  },
  {
   "property": "C02",
   "status": "partial",
   "theorems": [
    "Nora.C02_grammar_partial",
    "Nora.C02_ecdh_reply_refuted",
    "Nora.C02_sound"
   ],
   "note": "iff proved for every message except KEX_ECDH_REPLY; soundness proved for all. Completeness for KEX_ECDH_REPLY is refuted."
  },
  {
   "property": "C03",
   "status": "proved",
   "theorems": [
    "Nora.C03_no_panic",
    "Nora.C03_no_panic_session"
   ],
   "note": "Message::parse and SessionRequest::parse, every byte string."
  },
  {
   "property": "C04",
   "status": "proved",
   "theorems": [
    "Nora.C04_buffer"
   ],
   "note": "Every well-formed message, including KEX_ECDH_REPLY."
  },
  {
   "property": "C05",
   "status": "proved",
   "theorems": [
    "Nora.C05_injective",
    "Nora.C05_written"
   ],
   "note": "Every pair of well-formed messages, including KEX_ECDH_REPLY, and every spelling of true."
  },
  {
   "property": "C06",
   "status": "proved",
   "theorems": [
    "Nora.C06_number",
    "Nora.C06_empty",
    "Nora.C06_unassigned"
   ],
   "note": ""
  },
  {
   "property": "C07",
   "status": "proved",
   "theorems": [
    "Nora.C07_reject"
   ],
   "note": "Closed kinds are all except an unknown auth method, OPEN_CONFIRMATION and CHANNEL_REQUEST."
  },
  {
   "property": "C08",
   "status": "proved",
   "theorems": [
    "Nora.C08_form",
    "Nora.C08_serialize",
    "Nora.C08_parse",
    "Nora.C08_roundtrip"
   ],
   "note": ""
  },
  {
   "property": "C09",
   "status": "proved",
   "theorems": [
    "Nora.C09_name",
    "Nora.C09_signal",
    "Nora.C09_table"
   ],
   "note": ""
  },
  {
   "property": "C10",
   "status": "proved",
   "theorems": [
    "Nora.C10_accept",
    "Nora.C10_iter",
    "Nora.C10_no_panic"
   ],
   "note": ""
  },
  {
   "property": "C11",
   "status": "proved",
   "theorems": [
    "Nora.C11_mpint",
    "Nora.C11_unique",
    "Nora.C11_leading_zeros"
   ],
   "note": "Hypothesis: the mpint has a 32-bit length at all (otherwise u32::try_from panics)."
  },
  {
   "property": "C12",
   "status": "proved",
   "theorems": [
    "Nora.C12_utf8",
    "Nora.C12_ascii",
    "Nora.C12_asciiStr",
    "Nora.C12_debug"
   ],
   "note": ""
  },
  {
   "property": "C13",
   "status": "proved",
   "theorems": [
    "Nora.C13_wrap_legal",
    "Nora.C13_padding_bound"
   ],
   "note": "make_payload is any length-preserving slice writer; padding is moreover minimal."
  },
  {
   "property": "C14",
   "status": "proved",
   "theorems": [
    "Nora.C14_round_trip",
    "Nora.C14_into_raw"
   ],
   "note": ""
  },
  {
   "property": "C15",
   "status": "proved",
   "theorems": [
    "Nora.C15_access",
    "Nora.C15_wrapRaw_total"
   ],
   "note": ""
  },
  {
   "property": "C16",
   "status": "proved",
   "theorems": [
    "Nora.C16_panics_iff",
    "Nora.C16_tail_untouched"
   ],
   "note": ""
  },
  {
   "property": "C17",
   "status": "partial",
   "theorems": [
    "Nora.C17_errors",
    "Nora.C17_one_reason",
    "Nora.C17_consumed",
    "Nora.C17_no_panic_partial",
    "Nora.C17_refuted",
    "Nora.C17_refuted_every_buffer",
    "Nora.C17_server_buffer_partial"
   ],
   "note": "False as stated: nora_ssh/packet.rs:16 compares the length with the whole buffer, so an announced length in (buf.len()-4, buf.len()] panics (C17_refuted*). Proved: the exact panic condition, and on success exactly 4+len bytes consumed. C17_errors: exactly which streams are refused, with which error (Spec.Unframed), C17_one_reason."
  },
  {
   "property": "C18",
   "status": "proved",
   "theorems": [
    "Nora.C18_one",
    "Nora.C18_stream",
    "Nora.C18_wrapped_stream"
   ],
   "note": ""
  },
  {
   "property": "C19",
   "status": "proved",
   "theorems": [
    "Nora.C19_sent",
    "Nora.C19_parse",
    "Nora.C19_round_trip"
   ],
   "note": ""
  },
  {
   "property": "C20",
   "status": "partial",
   "theorems": [
    "Nora.C20_exact",
    "Nora.C20_lines_partial",
    "Nora.C20_refuted",
    "Nora.C20_refuted_s",
    "Nora.C20_refuted_sssh",
    "Nora.C20_skipped_partial",
    "Nora.C20_plain_example"
   ],
   "note": "False as stated (C20_refuted*: an empty line, S, SS.., SS..SH, or a line ending in CR hides the identification string; SSSH- is taken for it). C20_exact: exactly which lines are skipped (iff). C20_lines_partial: any sequence of these."
  },
  {
   "property": "C21",
   "status": "proved",
   "theorems": [
    "Nora.C21_exact",
    "Nora.C21_errors",
    "Nora.C21_sound",
    "Nora.C21_consumed",
    "Nora.C21_no_panic",
    "Nora.C21_too_long",
    "Nora.C21_version"
   ],
   "note": "Found on the stream at the start of a line, possibly after extra S bytes (see C20). C21_exact: the set of accepted streams as a grammar, both directions. C21_errors: the same for the streams that are not accepted, with the error (Spec.NoGreeting)."
  },
  {
   "property": "C22",
   "status": "proved",
   "theorems": [
    "Nora.C22_send_one",
    "Nora.C22_recv_framed",
    "Nora.C22_recv_one",
    "Nora.C22_round_trip"
   ],
   "note": "Counter stays below 2^64 (debug build panics on overflow); payload + 32 bytes fits both buffers; writes do not fail."
  },
  {
   "property": "C23",
   "status": "proved",
   "theorems": [
    "Nora.C23_delivered",
    "Nora.C23_bad_mac",
    "Nora.C23_error_counter"
   ],
   "note": ""
  },
  {
   "property": "C24",
   "status": "proved",
   "theorems": [
    "Nora.C24_step_uses",
    "Nora.C24_no_reuse",
    "Nora.C24_uses_complete"
   ],
   "note": "The two 32-byte keys of a direction are assumed different (they are two halves of one hash expansion)."
  },
  {
   "property": "C25",
   "status": "proved",
   "theorems": [
    "Nora.C25_prefix",
    "Nora.C25_sent_packets"
   ],
   "note": "MAC unforgeability is the hypothesis NoForgery about the adversary's stream; C25_sent_packets ties the packets to Out::send."
  },
  {
   "property": "C26",
   "status": "proved",
   "theorems": [
    "Nora.C26_no_panic",
    "Nora.C26_not_stale"
   ],
   "note": "Counter below 2^64 - 1: self.counter += 1 is modelled with the overflow check of a debug build."
  },
  {
   "property": "C27",
   "status": "proved",
   "theorems": [
    "Nora.C27_digest",
    "Nora.C27_session"
   ],
   "note": "Digest chain for every transcript, and for every successful handshake: each item of the hashed transcript is what went over the wire."
  },
  {
   "property": "C28",
   "status": "proved",
   "theorems": [
    "Nora.C28_injective",
    "Nora.C28_injective_32",
    "Nora.C28_functional",
    "Nora.C28_collision"
   ],
   "note": "Injectivity of the hashed encoding, for all transcripts whose items fit 32-bit lengths; equal as a whole for 32-byte secrets; collision form in terms of the code."
  },
  {
   "property": "C29",
   "status": "proved",
   "theorems": [
    "Nora.C29_expansion",
    "Nora.C29_total",
    "Nora.C29_length",
    "Nora.C29_prefix",
    "Nora.C29_distinct_inputs",
    "Nora.C29_first_later",
    "Nora.C29_cipher"
   ],
   "note": "All block counts, purposes and directions; also lengths, prefix stability and the assignment of blocks to the two cipher keys. Asking for zero blocks panics in the code (out[0]) and is excluded (n + 1)."
  },
  {
   "property": "C30",
   "status": "proved",
   "theorems": [
    "Nora.C30_kexInit",
    "Nora.C30_negotiation",
    "Nora.C30_algorithms",
    "Nora.C30_proceeds"
   ],
   "note": "Client starts with its identification string and writes do not fail."
  },
  {
   "property": "C31",
   "status": "proved",
   "theorems": [
    "Nora.C31_output",
    "Nora.C31_success"
   ],
   "note": "Every client stream and every point where writes may start to fail."
  },
  {
   "property": "C32",
   "status": "partial",
   "theorems": [
    "Nora.C32_agreement_partial",
    "Nora.C32_refuted_guess",
    "Nora.C32_refuted_ignore",
    "Nora.C32_refuted"
   ],
   "note": "False as stated: the server panics on the packet of a wrong guess and on IGNORE messages during the key exchange (C32_refuted*). Proved for all other clients, from commuting Diffie-Hellman."
  },
  {
   "property": "C33",
   "status": "partial",
   "theorems": [
    "Nora.C33_causes_partial",
    "Nora.C33_panics_partial",
    "Nora.C33_refuted_length",
    "Nora.C33_refuted_key_length",
    "Nora.C33_refuted_not_init",
    "Nora.C33_refuted_new_keys",
    "Nora.C33_refuted"
   ],
   "note": "False as stated (C33_refuted*: length window, bad ECDH_INIT, unparsable NEWKEYS). Proved: the exact set of client streams that make the server panic, described without the functions of the model."
  },
  {
   "property": "C34",
   "status": "proved",
   "theorems": [
    "Nora.C34_no_bypass",
    "Nora.C34_success_sent"
   ],
   "note": "Every client stream, all handlers (functions of the whole history, possibly panicking), every number of attempts."
  },
  {
   "property": "C35",
   "status": "proved",
   "theorems": [
    "Nora.C35_bound",
    "Nora.C35_injective",
    "Nora.C35_sessions"
   ],
   "note": ""
  },
  {
   "property": "C36",
   "status": "proved",
   "theorems": [
    "Nora.C36_answer",
    "Nora.C36_disjoint",
    "Nora.C36_no_auth",
    "Nora.C36_not_last"
   ],
   "note": "A known key whose PK_OK does not fit 256 bytes gets no answer: the server panics (see C38)."
  },
  {
   "property": "C37",
   "status": "proved",
   "theorems": [
    "Nora.C37_one_reply",
    "Nora.C37_authenticated",
    "Nora.C37_replies",
    "Nora.C37_served"
   ],
   "note": "Safety for every history (C37_one_reply, C37_authenticated) and completeness: a client that follows the protocol is served (C37_served)."
  },
  {
   "property": "C38",
   "status": "partial",
   "theorems": [
    "Nora.C38_panics_partial",
    "Nora.C38_refuted_disconnect",
    "Nora.C38_refuted_packet",
    "Nora.C38_refuted"
   ],
   "note": "False as stated (C38_refuted*: disconnect after the handshake, first packet not the service request, other messages, methods not implemented, more than 1024 bytes to be signed, probe for a large known key). Proved: the exact set of histories that end in a panic."
  },
  {
   "property": "C39",
   "status": "proved",
   "theorems": [
    "Nora.C39_insert",
    "Nora.C39_insert_full",
    "Nora.C39_reuse",
    "Nora.C39_remove",
    "Nora.C39_put",
    "Nora.C39_new",
    "Nora.C39_history"
   ],
   "note": ""
  },
  {
   "property": "C40",
   "status": "proved",
   "theorems": [
    "Nora.C40_confirmation",
    "Nora.C40_open",
    "Nora.C40_state"
   ],
   "note": "Every schedule of packets, process events and dropped futures. If all 2^32 numbers are in use or a packet counter is exhausted the server panics (C40_open says so)."
  },
  {
   "property": "C41",
   "status": "proved",
   "theorems": [
    "Nora.C41_cause",
    "Nora.C41_peer",
    "Nora.C41_home"
   ],
   "note": ""
  },
  {
   "property": "C42",
   "status": "partial",
   "theorems": [
    "Nora.C42_refuted",
    "Nora.C42_before",
    "Nora.C42_none",
    "Nora.C42_one_partial"
   ],
   "note": "C42_one_partial: a request gets exactly one reply of the right kind unless the server panics, if no future is dropped while the handler spawn runs. Without this it is false: C42_refuted."
  },
  {
   "property": "C43",
   "status": "proved",
   "theorems": [
    "Nora.C43_spawn",
    "Nora.C43_started",
    "Nora.C43_request"
   ],
   "note": ""
  },
  {
   "property": "C44",
   "status": "partial",
   "theorems": [
    "Nora.C44_refuted",
    "Nora.C44_data",
    "Nora.C44_eof",
    "Nora.C44_close",
    "Nora.C44_ended",
    "Nora.C44_reading_partial"
   ],
   "note": "Data is proved for every schedule; that no output stream is forgotten only if no reply is interrupted (false otherwise: C44_refuted); EOF and CLOSE once per process, but a channel may have several processes."
  },
  {
   "property": "C45",
   "status": "partial",
   "theorems": [
    "Nora.C45_taken",
    "Nora.C45_input_partial",
    "Nora.C45_refuted",
    "Nora.C45_refuted_cut"
   ],
   "note": "Proved if the pipe takes every write completely (write is used instead of write_all) and no future is dropped in that write. False without the first (C45_refuted) or the second (C45_refuted_cut)."
  },
  {
   "property": "C46",
   "status": "partial",
   "theorems": [
    "Nora.C46_refuted",
    "Nora.C46_what_partial",
    "Nora.C46_after_partial"
   ],
   "note": "False as stated (C46_refuted): stderr data and the exit status are sent whenever they come, also after CLOSE, and a channel may have several processes. C46_what_partial lists all that may come after CLOSE. C46_after_partial: nothing but replies when the process and its stderr have ended before its stdout."
  },
  {
   "property": "C47",
   "status": "partial",
   "theorems": [
    "Nora.C47_refuted",
    "Nora.C47_received_partial",
    "Nora.C47_complete_partial"
   ],
   "note": "Proved if no other event happens while a packet is only partially received. Otherwise the future receive is dropped and the bytes read so far are lost (C47_refuted)."
  },
  {
   "property": "C48",
   "status": "partial",
   "theorems": [
    "Nora.C48_refuted",
    "Nora.C48_data_partial"
   ],
   "note": "False as stated (C48_refuted): windows are never considered. Proved: chunks of 1 to 256 bytes, only actual output."
  },
  {
   "property": "C49",
   "status": "proved",
   "theorems": [
    "Nora.C49_disconnect",
    "Nora.C49_ended",
    "Nora.C49_ignore",
    "Nora.C49_view"
   ],
   "note": ""
  },
  {
   "property": "C50",
   "status": "partial",
   "theorems": [
    "Nora.C50_always",
    "Nora.C50_refuted",
    "Nora.C50_fatal",
    "Nora.C50_panic_partial"
   ],
   "note": "False as stated (C50_refuted): C50_fatal and C50_always give the packets that make the server panic in every session; C50_panic_partial says that there is no other reason within the control of the client."
  },
  {
   "property": "C51",
   "status": "partial",
   "theorems": [
    "Nora.C51_isolated_partial",
    "Nora.C51_others_partial",
    "Nora.C51_stopped",
    "Nora.C51_survives_partial",
    "Nora.C51_each_partial",
    "Nora.C51_panics",
    "Nora.C51_stopped_by",
    "Nora.C51_authenticated",
    "Nora.C51_stops",
    "Nora.C51_crash",
    "Nora.C51_refuted"
   ],
   "note": "False as stated (C51_refuted): a client for which the server panics stops it for all (C51_stops, C51_crash), and nothing else does (C51_stopped, C51_panics, C51_stopped_by: only a panic of authenticate_new_client or of the loop of Client::start). Proved while it runs: each client is served exactly as if it were alone (C51_isolated_partial, C51_each_partial)."
  },
  {
   "property": "C52",
   "status": "proved",
   "theorems": [
    "Nora.C52_exclusion",
    "Nora.C52_poll"
   ],
   "note": ""
  },
  {
   "property": "C53",
   "status": "partial",
   "theorems": [
    "Nora.C53_refuted_cancel",
    "Nora.C53_refuted",
    "Nora.C53_partial"
   ],
   "note": "False as stated (C53_refuted: a task that was not waiting takes the lock before the woken one, C53_refuted_cancel: the woken task gives up). Proved for histories without these two."
  },
  {
   "property": "C54",
   "status": "proved",
   "theorems": [
    "Nora.C54_dir_any",
    "Nora.C54_dir",
    "Nora.C54_paths_any",
    "Nora.C54_paths",
    "Nora.C54_complete"
   ],
   "note": "Every input stream, also when operations fail in the middle (C54_dir_any, C54_paths_any); C54_complete: files that are sent are stored."
  },
  {
   "property": "C55",
   "status": "partial",
   "theorems": [
    "Nora.C55_header",
    "Nora.C55_refuted",
    "Nora.C55_partial"
   ],
   "note": "C55_header proves the first part. Malformed headers are not always errors (C55_refuted); C55_partial gives the exact set of accepted lines."
  },
  {
   "property": "C56",
   "status": "partial",
   "theorems": [
    "Nora.C56_never",
    "Nora.C56_refuted",
    "Nora.C56_partial",
    "Nora.C56_names"
   ],
   "note": "False, and for every list of files (C56_never): no byte 0 is sent after a file. Proved: which bytes are sent, and that with the missing bytes files of 42 bytes would be recreated."
  },
  {
   "property": "C57",
   "status": "partial",
   "theorems": [
    "Nora.C57_refuted",
    "Nora.C57_partial"
   ],
   "note": "False as stated (C57_refuted: names may contain .. and /). Proved: files are created after changing to the directory, with the announced names only."
  },
  {
   "property": "C58",
   "status": "proved",
   "theorems": [
    "Nora.C58_authenticated",
    "Nora.C58_none",
    "Nora.C58_panics",
    "Nora.C58_probe",
    "Nora.C58_session",
    "Nora.C58_served",
    "Nora.C58_crash",
    "Nora.C58_words",
    "Nora.C58_words_unique",
    "Nora.C58_shell",
    "Nora.C58_started",
    "Nora.C58_signal"
   ],
   "note": ""
  },
  {
   "property": "C59",
   "status": "proved",
   "theorems": [
    "Nora.C59_small_order"
   ],
   "note": "Defect of the code stated positively: a client key of small order is accepted and the keys become public."
  },
  {
   "property": "C60",
   "status": "proved",
   "theorems": [
    "Nora.C60_written"
   ],
   "note": "Hypothesis: no reply was interrupted by another event (select! drops the future in the middle of a write)."
  },
  {
   "property": "C61",
   "status": "proved",
   "theorems": [
    "Nora.C61_closed",
    "Nora.C61_close"
   ],
   "note": ""
  },
  {
   "property": "C62",
   "status": "proved",
   "theorems": [
    "Nora.C62_packet",
    "Nora.C62_output"
   ],
   "note": "C62_packet for sessions without dropped futures, C62_output for those without interrupted replies."
  },
  {
   "property": "C63",
   "status": "proved",
   "theorems": [
    "Nora.C63_accepted",
    "Nora.C63_refused",
    "Nora.C63_start"
   ],
   "note": ""
  },
  {
   "property": "C64",
   "status": "proved",
   "theorems": [
    "Nora.C64_process",
    "Nora.C64_sshd"
   ],
   "note": "Also after the server has stopped. C64_sshd: for the example server, with its signature check and the words of the command."
  },
  {
   "property": "C65",
   "status": "proved",
   "theorems": [
    "Nora.C65_output"
   ],
   "note": "Spec.Written says what was written for a list of payloads. The handshake itself is C31."
  },
  {
   "property": "C66",
   "status": "proved",
   "theorems": [
    "Nora.C66_handshake",
    "Nora.C66_session"
   ],
   "note": "C66_handshake for the key exchange, C66_session for the rest."
  },
  {
   "property": "C67",
   "status": "proved",
   "theorems": [
    "Nora.C67_input",
    "Nora.C67_packets"
   ],
   "note": "Spec.Taken says what was consumed for a list of payloads. C67_packets: without dropped reads the input starts with exactly these packets."
  },
  {
   "property": "C68",
   "status": "proved",
   "theorems": [
    "Nora.C68_session",
    "Nora.C68_served"
   ],
   "note": "C68_session: equality with the sequential program; C68_served: a client that follows the protocol gets a session. whole_run is a concrete run."
  },
  {
   "property": "C69",
   "status": "partial",
   "theorems": [
    "Nora.C69_constant_partial",
    "Nora.C69_refuted"
   ],
   "note": "False as stated (C69_refuted): the cookie is a constant, C69_constant_partial."
  },
  {
   "property": "C70",
   "status": "proved",
   "theorems": [
    "Nora.C70_integrity",
    "Nora.C70_process"
   ],
   "note": "C70_integrity, C70_process; the assumption NoForgery is about this input only, whole_noForgery shows it for a concrete one."
  },
  {
   "property": "C71",
   "status": "proved",
   "theorems": [
    "Nora.C71_client_reads"
   ],
   "note": "C71_client_reads: exactly the payloads while the connection lasts, a prefix after its end."
  },
  {
   "property": "C72",
   "status": "partial",
   "theorems": [
    "Nora.C72_lifo_partial",
    "Nora.C72_starvation",
    "Nora.C72_refuted"
   ],
   "note": "False as stated (C72_refuted, C72_starvation: for every n a run in which a future that waits is passed by n others). C72_lifo_partial: the one that began to wait last is woken."
  },
  {
   "property": "C73",
   "status": "partial",
   "theorems": [
    "Nora.C73_partial",
    "Nora.C73_refuted",
    "Nora.C73_connection_partial"
   ],
   "note": "False as stated (C73_refuted): the 64-bit counter does not wrap at 2^32. C73_partial and C73_connection_partial: the first 2^32 packets."
  },
  {
   "property": "C74",
   "status": "partial",
   "theorems": [
    "Nora.C74_session_partial",
    "Nora.C74_never_declined",
    "Nora.C74_refuted"
   ],
   "note": "False as stated (C74_refuted, a channel of the type x11). C74_session_partial: session channels are confirmed; C74_never_declined: no channel is declined."
  },
  {
   "property": "C75",
   "status": "partial",
   "theorems": [
    "Nora.C75_ended_partial",
    "Nora.C75_unanswered",
    "Nora.C75_refuted"
   ],
   "note": "False as stated (C75_refuted, a process without output). C75_ended_partial: CLOSE is sent only when the output of a process has ended; C75_unanswered: never for a channel without a request."
  },
  {
   "property": "C76",
   "status": "partial",
   "theorems": [
    "Nora.C76_input_partial",
    "Nora.C76_refuted"
   ],
   "note": "False as stated (C76_refuted). C76_input_partial: the input of the first process is closed at once, data then goes to the second one."
  },
  {
   "property": "C77",
   "status": "partial",
   "theorems": [
    "Nora.C77_watched_partial",
    "Nora.C77_unwatched",
    "Nora.C77_refuted"
   ],
   "note": "False as stated (C77_refuted, a process with an input only). C77_watched_partial: processes with an output; C77_unwatched: no others."
  },
  {
   "property": "C78",
   "status": "partial",
   "theorems": [
    "Nora.C78_handlers_partial",
    "Nora.C78_ignored",
    "Nora.C78_refuted"
   ],
   "note": "False as stated (C78_refuted), the service is ignored (C78_ignored). C78_handlers_partial: with handlers that check it."
  },
  {
   "property": "C79",
   "status": "partial",
   "theorems": [
    "Nora.C79_cost_partial",
    "Nora.C79_any",
    "Nora.C79_refuted"
   ],
   "note": "False as stated (C79_refuted; C79_any: a client refused n times for every n up to 10^9). C79_cost_partial: each refusal costs a packet."
  },
  {
   "property": "C80",
   "status": "proved",
   "theorems": [
    "Nora.C80_output",
    "Nora.C80_eof"
   ],
   "note": "C60, C22 and C44 joined: from what the processes write to what the client decrypts."
  },
  {
   "property": "C81",
   "status": "proved",
   "theorems": [
    "Nora.C81_input"
   ],
   "note": "C47 and C45 joined: from the packets of the client to the standard input. The conditions are those of C45 and C47, which are false without them."
  },
  {
   "property": "C82",
   "status": "partial",
   "theorems": [
    "Nora.C82_sent",
    "Nora.C82_never",
    "Nora.C82_limit_partial",
    "Nora.C82_refuted"
   ],
   "note": "False as stated (C82_refuted): WINDOW_ADJUST is never sent (C82_never; C82_sent: the kinds of messages a session sends). C82_limit_partial: what a client that keeps to its window can send."
  },
  {
   "property": "C83",
   "status": "partial",
   "theorems": [
    "Nora.C83_never",
    "Nora.C83_data_partial",
    "Nora.C83_alike",
    "Nora.C83_refuted"
   ],
   "note": "False as stated (C83_refuted, C83_never): it is sent as DATA (C83_data_partial) and cannot be told from the standard output (C83_alike)."
  },
  {
   "property": "C84",
   "status": "partial",
   "theorems": [
    "Nora.C84_never",
    "Nora.C84_unknown",
    "Nora.C84_transport_partial",
    "Nora.C84_refuted"
   ],
   "note": "False as stated (C84_refuted, C84_never, C84_unknown: every such message makes the server panic). C84_transport_partial: IGNORE and DISCONNECT."
  },
  {
   "property": "C85",
   "status": "partial",
   "theorems": [
    "Nora.C85_never",
    "Nora.C85_fatal",
    "Nora.C85_keys_partial",
    "Nora.C85_refuted"
   ],
   "note": "False as stated (C85_refuted, C85_never, C85_fatal). C85_keys_partial: the keys stay those of the start."
  },
  {
   "property": "C86",
   "status": "partial",
   "theorems": [
    "Nora.C86_fatal",
    "Nora.C86_handlers_partial",
    "Nora.C86_refuted"
   ],
   "note": "False as stated (C86_refuted, C86_fatal: the server panics). C86_handlers_partial: no handler is called."
  },
  {
   "property": "C87",
   "status": "partial",
   "theorems": [
    "Nora.C87_cost_partial",
    "Nora.C87_any",
    "Nora.C87_refuted"
   ],
   "note": "False as stated (C87_refuted; C87_any: a session for every number up to 10^9). C87_cost_partial: each channel costs a packet."
  },
  {
   "property": "C88",
   "status": "partial",
   "theorems": [
    "Nora.C88_once_partial",
    "Nora.C88_refuted"
   ],
   "note": "False as stated (C88_refuted: error output of a closed channel arrives on the new one with the same number). C88_once_partial: clients that use each number once."
  },
  {
   "property": "C89",
   "status": "partial",
   "theorems": [
    "Nora.C89_usual_partial",
    "Nora.C89_refuted"
   ],
   "note": "False as stated (C89_refuted). C89_usual_partial: holds for clients that allow at least 256 bytes."
  },
  {
   "property": "C90",
   "status": "proved",
   "theorems": [
    "Nora.C90_starts",
    "Nora.C90_identification",
    "Nora.C90_first"
   ],
   "note": "C90_starts, C90_identification, C90_first."
  },
  {
   "property": "C91",
   "status": "partial",
   "theorems": [
    "Nora.C91_constant",
    "Nora.C91_refuted",
    "Nora.C91_key_partial"
   ],
   "note": "False as stated (C91_refuted): the generator is seeded with 0, so the key is the same everywhere (C91_constant, C91_key_partial)."
  },
  {
   "property": "C92",
   "status": "partial",
   "theorems": [
    "Nora.C92_anyone",
    "Nora.C92_refuted",
    "Nora.C92_gets_in",
    "Nora.C92_signature_partial"
   ],
   "note": "False as stated (C92_refuted, C92_anyone; C92_gets_in for whole connections). C92_signature_partial: a valid signature of the key shown is needed."
  },
  {
   "property": "C93",
   "status": "partial",
   "theorems": [
    "Nora.C93_same",
    "Nora.C93_refuted",
    "Nora.C93_started_partial"
   ],
   "note": "False as stated (C93_refuted); C93_same: the sessions of all users are the same for all schedules. C93_started_partial: a process is started only on a connection where a user has signed."
  },
  {
   "property": "C94",
   "status": "partial",
   "theorems": [
    "Nora.C94_stops",
    "Nora.C94_password",
    "Nora.C94_refuted",
    "Nora.C94_stopped_partial"
   ],
   "note": "False as stated (C94_refuted; C94_stops: every client whose authentication panics stops the server; C94_password). C94_stopped_partial: all ways in which it can stop."
  },
  {
   "property": "C95",
   "status": "proved",
   "theorems": [
    "Nora.C95_deterministic",
    "Nora.C95_sessions",
    "Nora.C95_endings",
    "Nora.C95_streams"
   ],
   "note": "C95_sessions and C95_endings, both equivalences with Spec.Trace and Spec.Ending, and C95_streams: every stream is one they speak of (no dropped futures, no failing writes, packet counters not exhausted); C95_deterministic: each packet has one effect."
  },
  {
   "property": "C96",
   "status": "proved",
   "theorems": [
    "Nora.C96_command",
    "Nora.C96_client"
   ],
   "note": "C96_command, C96_client. The process must have a standard output (without one no exit status is sent, C77); the example runs ls with output on both streams."
  },
  {
   "property": "C97",
   "status": "proved",
   "theorems": [
    "Nora.C97_exact",
    "Nora.C97_unique"
   ],
   "note": "C97_exact (an equivalence with Spec.Session and Spec.With), C97_unique. Hypotheses: the handshake succeeded, writes succeed, and fewer than 2^64 bytes are sent by the client. The example is a client that is refused and leaves."
  },
  {
   "property": "C98",
   "status": "proved",
   "theorems": [
    "Nora.C98_refused",
    "Nora.C98_or_packet",
    "Nora.C98_one_reason"
   ],
   "note": "C98_refused (an equivalence with Spec.Refused), C98_or_packet, C98_one_reason. The packet counter is not exhausted (C26)."
  },
  {
   "property": "C99",
   "status": "proved",
   "theorems": [
    "Nora.C99_one_outcome",
    "Nora.C99_sent_once",
    "Nora.C99_outcome",
    "Nora.C99_exact"
   ],
   "note": "C99_outcome, C99_one_outcome and the equivalences C99_exact with Spec.Shakes; for a session the identifier and the keys are those of Spec.Agreed. What is sent is Spec.Answered: each byte of it is determined by what the client has sent and the random bytes (C99_sent_once). The panics are part of the specification (they are what refutes C33). Hypothesis: writes do not fail (C31_output has the case that they do)."
  },
  {
   "property": "C100",
   "status": "proved",
   "theorems": [
    "Nora.C100_open",
    "Nora.C100_always",
    "Nora.C100_closed",
    "Nora.C100_entered",
    "Nora.C100_entry"
   ],
   "note": "C100_open, C100_closed: equivalences between runs of the server and the composed specifications Spec.Open and Spec.Closed; C100_always: other clients do not matter; C100_entry, C100_entered: each client gets in, in one way, or does not. Hypotheses: writes do not fail, no operation is interrupted by select! (Spec.Smooth), counters below 2^64."
  },
  {
   "property": "C101",
   "status": "proved",
   "theorems": [
    "Nora.C101_cut",
    "Nora.C101_server",
    "Nora.C101_stops",
    "Nora.C101_handshake"
   ],
   "note": "C101_cut for a client alone, C101_server for each client of a running server, C101_stops: exactly a failing write in the authentication stops the server (this is one of the ways in which C51 fails), C101_handshake."
  },
  {
   "property": "C102",
   "status": "proved",
   "theorems": [
    "Nora.C102_errors",
    "Nora.C102_one_error",
    "Nora.C102_every_payload"
   ],
   "note": "C102_errors: exact; C102_one_error, C102_every_payload. The reply of the server (number 31) is refused for every content, which the specification records (see C03)."
  },
  {
   "property": "C103",
   "status": "proved",
   "theorems": [
    "Nora.C103_once",
    "Nora.C103_wire",
    "Nora.C103_same",
    "Nora.C103_decrypted",
    "Nora.C103_command"
   ],
   "note": "C103_wire: the output of any connection of any run is that of Spec.OnWire; C103_once: which is unique; C103_same, C103_decrypted; C103_command: a command from the first byte of the connection to the exit status, in every run. Hypotheses: the client is still connected, writes do not fail and no write was dropped by select! (Spec.WriteCut; the known defect, C60); C101 says what is sent if a write fails."
  },
  {
   "property": "C104",
   "status": "proved",
   "theorems": [
    "Nora.C104_exact",
    "Nora.C104_one_outcome",
    "Nora.C104_stops",
    "Nora.C104_stopped"
   ],
   "note": "C104_exact: the result of the authentication of any stream is that of Spec.SshdClient, in both directions; C104_one_outcome: exactly one; C104_stops, C104_stopped: for whole servers. Hypotheses: writes to the client succeed and it sends less than 2^64 bytes; C101 says what happens if writes fail."
  },
  {
   "property": "C105",
   "status": "proved",
   "theorems": [
    "Nora.C105_program",
    "Nora.C105_spawn",
    "Nora.C105_stops"
   ],
   "note": "C105_program: each request has one program or none; C105_spawn: what the handler does for it; C105_stops: how a client that has got in stops the server, in both directions, for whole servers. Hypotheses: the client has got in (Spec.Entered, exact by C100), writes to it succeed, receive is not dropped by select! (Spec.Smooth), and packet counters are not exhausted (Spec.Few)."
  },
  {
   "property": "C106",
   "status": "proved",
   "theorems": [
    "Nora.C106_exact",
    "Nora.C106_one",
    "Nora.C106_name",
    "Nora.C106_header"
   ],
   "note": "C106_exact: an equivalence with Spec.ScpRun for the whole program, C106_one: which is unique; C106_header, C106_name: the same for first lines and names of files. Reading the standard input fails only at its end."
  },
  {
   "property": "C107",
   "status": "partial",
   "theorems": [
    "Nora.C107_refuted",
    "Nora.C107_errors",
    "Nora.C107_status_partial"
   ],
   "note": "False as stated (C107_refuted; C107_errors: every error has the status 0). C107_status_partial: a success has status 0, other statuses are 101 and come from the named panics only."
  },
  {
   "property": "C108",
   "status": "proved",
   "theorems": [
    "Nora.C108_dialog",
    "Nora.C108_server"
   ],
   "note": "C108_dialog: in any session; C108_server: from the first byte of the connection, in every run of the server. The last write to a process takes everything it is given (an assumption on its pipe)."
  },
  {
   "property": "C109",
   "status": "proved",
   "theorems": [
    "Nora.C109_copied",
    "Nora.C109_acknowledged"
   ],
   "note": "C109_copied: the copy succeeds, for every content and division into packets; C109_acknowledged: three acknowledgements imply that the file is stored. That the program started by the example server is scp is an assumption: Spec.Joint says how a session and a program run together."
  },
  {
   "property": "C110",
   "status": "proved",
   "theorems": [
    "Nora.C110_stranger",
    "Nora.C110_tight",
    "Nora.C110_witness"
   ],
   "note": "C110_stranger: the bound for every client that has not been authenticated, also if writes fail, futures are dropped or the server has stopped; C110_tight, C110_witness: the ratio is attained. The bytes of the handshake that were read are not counted in the bound."
  },
  {
   "property": "C111",
   "status": "proved",
   "theorems": [
    "Nora.C111_waiting",
    "Nora.C111_always"
   ],
   "note": "C111_waiting: an equivalence with Spec.Undecided; C111_always: other clients do not matter. Hypotheses: writes do not fail and the client sends less than 2^64 bytes. Together with C100_open and C100_closed every phase of a connection has an exact description."
  },
  {
   "property": "C112",
   "status": "proved",
   "theorems": [
    "Nora.C112_bound",
    "Nora.C112_agreement",
    "Nora.C112_replay"
   ],
   "note": "C112_bound: in any run, what has to be signed is the hash of the transcript of this connection, with the request; C112_agreement: a signer that has seen a transcript of its own has seen the same one, and has the same keys, or there is an explicit collision; C112_replay: two connections. Writes may fail and the server may have stopped. That a handler accepts only signatures of the holder of the key is up to the handler (C58 for the example server)."
  },
  {
   "property": "C113",
   "status": "proved",
   "theorems": [
    "Nora.C113_reply",
    "Nora.C113_client",
    "Nora.C113_user",
    "Nora.C113_channel"
   ],
   "note": "C113_reply: in any run, what a client can read as the reply has the signature of the transcript of its connection; C113_client: a client that accepts a signature shares its transcript with a connection of the server; C113_user: the same for the owner of the key for whom a process is started; C113_channel: all that is received is theirs, under the premise that packets are not forged (NoForgery, as in C25). That signatures cannot be forged is a premise, with a model of the signers that is left open. Writes may fail and the server may have stopped."
  },
  {
   "property": "C114",
   "status": "proved",
   "theorems": [
    "Nora.C114_everywhere",
    "Nora.C114_stopped"
   ],
   "note": "C114_everywhere: the places; C114_stopped: why a server has stopped. The converse, that each place can be reached, is C100_open, C100_closed and C111_waiting. Premises: writes succeed, no read is dropped in the middle, less than 2^64 packets."
  },
  {
   "property": "C115",
   "status": "proved",
   "theorems": [
    "Nora.C115_deaf",
    "Nora.C115_interrupted",
    "Nora.C115_idle"
   ],
   "note": "C115_deaf: from any moment at which more was read than was received; C115_idle: what can still happen then; C115_interrupted: from the first interrupted read. Premise: nothing in the input of the client has the MAC of a packet except this packet at its place (stronger than the premise of C70, which does not fix the place)."
  },
  {
   "property": "C116",
   "status": "proved",
   "theorems": [
    "Nora.C116_written",
    "Nora.C116_client_reads",
    "Nora.C116_mute"
   ],
   "note": "C116_written: what was written of each packet; C116_client_reads: what a client gets from it; C116_mute: nothing is read later either, in every continuation. That nothing else is read has the premise that wherever a MAC occurs in what the server wrote it is that of a whole packet at its place. C71 is the case in which no write was dropped, without this premise."
  },
  {
   "property": "C117",
   "status": "partial",
   "theorems": [
    "Nora.C117_never",
    "Nora.C117_refuted",
    "Nora.C117_fetched_partial",
    "Nora.C117_taken"
   ],
   "note": "False as stated (C117_refuted): C117_never: no file, whatever its content, can be taken as the header says. C117_fetched_partial: the client decrypts exactly a header that says 42, the content, the end of the output and the status 0, in every division into pieces and every run; missing are the right size and the byte 0. C117_taken: the second sentence, proved in full."
  },
  {
   "property": "C118",
   "status": "proved",
   "theorems": [
    "Nora.C118_copied",
    "Nora.C118_acknowledged",
    "Nora.C118_directory",
    "Nora.C118_told"
   ],
   "note": "C118_copied: the first sentence. C118_acknowledged: the second sentence, at every moment of a session and for every k. C118_directory: the third sentence. C118_told: the last sentence."
  }
 ]
}