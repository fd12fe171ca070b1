{"id": "C01", "title": "Message round-trip", "statement": "Serialising any well-formed SSH message into a big enough buffer and parsing the bytes written yields the same message, field for field.", "quantifier": "every message value of every variant (all strings shorter than 2^32 bytes, text fields valid UTF-8/ASCII/name-lists), every buffer and every prior buffer content", "why_tests_cant": "The unit tests serialise-parse-serialise one literal per variant; field values, lengths and variants (including nested ones) are unbounded, and no test covers Disconnect/Ignore/Debug/KEXINIT/ECDH messages at all.", "anchors": ["nora_ssh_core/src/message/mod.rs: Message::serialize, Message::parse", "nora_ssh_core/src/message/userauth.rs", "nora_ssh_core/src/message/channel/mod.rs", "nora_ssh_core/src/message/key_exchange/mod.rs", "nora_ssh_core/src/message/key_exchange/ecdh.rs"]}
{"id": "C02", "title": "Parser accepts exactly the SSH grammar", "statement": "Parsing a byte string succeeds with message m if and only if the byte string is an RFC 4250-4254/5656 encoding of m (where a boolean true may be any non-zero byte) and m is well-formed; in particular nothing else is accepted and every field comes from its own place in the packet.", "quantifier": "every byte string and every message", "why_tests_cant": "Acceptance must be decided for all byte strings; tests only feed strings produced by the serialiser.", "anchors": ["nora_ssh_core/src/message/mod.rs: Message::parse", "nora_ssh_core/src/data.rs: parse_string, parse_uint32, parse_bool, NameList::try_from"]}
{"id": "C03", "title": "Parsing untrusted bytes never panics", "statement": "Message::parse (and the session-request parser) returns Ok or Err for every byte string; it never panics, slices out of range or overflows.", "quantifier": "every byte string of every length", "why_tests_cant": "A panic could hide behind any single length field value; fuzzing only samples.", "anchors": ["nora_ssh_core/src/message/mod.rs: Message::parse", "nora_ssh_core/src/message/channel/session.rs: SessionRequest::parse"]}
{"id": "C04", "title": "Serialiser respects the buffer", "statement": "Serialising a well-formed message returns None exactly when the buffer is shorter than the message's encoding; otherwise the first part returned is the encoding, its length is the encoding's length, and every byte after it is left as it was.", "quantifier": "every well-formed message, every buffer length and content", "why_tests_cant": "Boundary behaviour must hold for each buffer length at each field boundary of each variant.", "anchors": ["nora_ssh_core/src/message/mod.rs: Message::serialize", "nora_ssh_core/src/data.rs: make_string2, make_uint32, make_bool, make_raw, make_pos_mpint"]}
{"id": "C05", "title": "Encodings are unambiguous", "statement": "Two different well-formed messages never have the same bytes on the wire.", "quantifier": "every pair of well-formed messages", "why_tests_cant": "Quantifies over pairs of arbitrary messages of possibly different variants.", "anchors": ["nora_ssh_core/src/message/mod.rs: Message::serialize"]}
{"id": "C06", "title": "Message numbers are dispatched to the right variant", "statement": "A successfully parsed message has the variant assigned to its first byte by the SSH number registry; an empty packet and every unassigned number are rejected with the error naming that number.", "quantifier": "every byte string (every first byte, every tail)", "why_tests_cant": "Needs all 256 numbers combined with all tails.", "anchors": ["nora_ssh_core/src/message/mod.rs: Message::parse", "nora_ssh_core/src/message/userauth.rs: UserAuth::parse", "nora_ssh_core/src/message/channel/mod.rs: Channel::parse"]}
{"id": "C07", "title": "Truncated and padded messages are rejected", "statement": "For every message kind without an open-ended tail, removing bytes from the end of an encoding or appending bytes to it makes the parser reject it.", "quantifier": "every well-formed message of a closed kind, every cut position, every non-empty suffix", "why_tests_cant": "Every cut point of every message size.", "anchors": ["nora_ssh_core/src/message/mod.rs: Message::parse"]}
{"id": "C08", "title": "Session request round-trip and grammar", "statement": "Serialising a channel session request (pty, x11, env, shell, exec, subsystem, window-change, xon-xoff, signal, exit-status, exit-signal) yields its RFC 4254 type name and data, and parsing accepts exactly (type name, data) pairs of this form, giving back the same request.", "quantifier": "every request value, every type string and every data string", "why_tests_cant": "Unit tests use one literal per request and never malformed data.", "anchors": ["nora_ssh_core/src/message/channel/session.rs: SessionRequest::parse, SessionRequest::serialize"]}
{"id": "C09", "title": "Signal names", "statement": "Converting a signal name to a Signal and back gives the same name, and converting a Signal (whose Other payload is not a known name) to a name and back gives the same Signal.", "quantifier": "every byte string and every signal value", "why_tests_cant": "Ranges over all byte strings.", "anchors": ["nora_ssh_core/src/message/channel/session.rs: signal! macro, Signal"]}
{"id": "C10", "title": "Name-lists", "statement": "A byte string is accepted as a name-list iff it is ASCII and is empty or splits at commas into non-empty names; iterating yields exactly those names in order, each non-empty and comma-free; joining them with commas gives the input back; nothing panics.", "quantifier": "every byte string", "why_tests_cant": "All placements of commas and all lengths; the tests use five literals.", "anchors": ["nora_ssh_core/src/data.rs: NameList::try_from, NameListIter::next"]}
{"id": "C11", "title": "mpint encoding", "statement": "The positive-mpint writer emits the RFC 4251 mpint of the unsigned big-endian value of its input: right value, never negative, no redundant leading bytes, independent of leading zeros in the input; it returns None exactly when the buffer is too small.", "quantifier": "every byte string (value), every buffer", "why_tests_cant": "Value identity over all magnitudes/high bits/leading zero counts; there are no tests of it.", "anchors": ["nora_ssh_core/src/data.rs: make_pos_mpint, make_pos_mpint2"]}
{"id": "C12", "title": "UTF-8 and ASCII validation", "statement": "Text fields accepted by the parser are exactly the byte strings that are the UTF-8 encoding of some sequence of Unicode scalar values; every ASCII byte string is among them, so the unwraps guarded by is_ascii cannot fail.", "quantifier": "every byte string", "why_tests_cant": "The set of valid strings is infinite.", "anchors": ["nora_ssh_core/src/data.rs: AsciiStr::try_from, NameList::try_from", "nora_ssh_core/src/message/mod.rs: Debug::parse"]}
{"id": "C13", "title": "Outgoing packets obey RFC 4253 section 6", "statement": "Every packet produced has padding between 4 and 255 bytes, length fields consistent with its contents, a length that is a multiple of the block size (counting the length field or not as configured), and at least 16 bytes in the unencrypted mode.", "quantifier": "every payload, every block size, both padding modes, every buffer large enough, every random padding", "why_tests_cant": "All payload lengths modulo all block sizes.", "anchors": ["nora_ssh_core/src/packet.rs: Packet::wrap"]}
{"id": "C14", "title": "Packet wrap/unwrap round-trip", "statement": "Wrapping a payload and unwrapping the raw bytes with the same parameters succeeds and returns the same payload, whatever the padding and whatever follows in the buffer.", "quantifier": "every payload, block size, padding mode, padding bytes and buffer", "why_tests_cant": "All lengths and parameters.", "anchors": ["nora_ssh_core/src/packet.rs: Packet::wrap, Packet::wrap_raw, Packet::payload, Packet::into_raw"]}
{"id": "C15", "title": "Unwrapped packets are safe to access", "statement": "If raw data is accepted as a packet and the announced packet fits the buffer, none of the accessors (payload, packet bytes, raw bytes, payload length) panics or underflows, the payload lies inside the packet, and payload + padding + 1 = packet length.", "quantifier": "every buffer contents, block size and mode", "why_tests_cant": "Every value of the 32-bit length and 8-bit padding fields.", "anchors": ["nora_ssh_core/src/packet.rs: Packet::wrap_raw and accessors"]}
{"id": "C16", "title": "Wrap needs exactly the advertised room", "statement": "Wrapping panics if and only if the buffer is too small for header, payload and padding (or the length exceeds 32 bits); with enough room it never panics and bytes after the packet are untouched.", "quantifier": "every buffer length, payload length, block size, mode", "why_tests_cant": "Boundary must hold for all combinations.", "anchors": ["nora_ssh_core/src/packet.rs: Packet::wrap"]}
{"id": "C17", "title": "Unencrypted packet reader", "statement": "Reading a packet from any peer byte stream yields an error or a packet; it consumes exactly 4 + packet length bytes on success, never more than the buffer can hold, and never panics.", "quantifier": "every input stream, every buffer size of at least 5 bytes, every block size", "why_tests_cant": "All 2^32 announced lengths times all streams.", "anchors": ["nora_ssh/src/packet.rs: parse"]}
{"id": "C18", "title": "Packet stream framing", "statement": "Packets written back to back are read back one by one, in order, with equal payloads, and the stream is left at the start of the next packet.", "quantifier": "every sequence of payloads of every length that fits", "why_tests_cant": "Unbounded sequences.", "anchors": ["nora_ssh/src/packet.rs: parse", "nora_ssh_core/src/packet.rs: Packet::wrap"]}
{"id": "C19", "title": "Identification string round-trip", "statement": "An identification string SSH-2.0-<text> sent by this library is parsed by it to the same string with exactly its bytes consumed, for every text without CR LF that keeps it within 253 bytes.", "quantifier": "every text, every following stream", "why_tests_cant": "All texts including ones with bare CR or LF.", "anchors": ["nora_ssh/src/identifier.rs: parse, send", "nora_ssh_core/src/identifier.rs: Identifier::new"]}
{"id": "C20", "title": "Lines before the identification string are skipped", "statement": "Any number of CR LF-terminated lines that do not start with SSH- may precede the identification string and do not change the result.", "quantifier": "every sequence of pre-identification lines", "why_tests_cant": "The automaton must be right on all line contents.", "anchors": ["nora_ssh/src/identifier.rs: parse"]}
{"id": "C21", "title": "Identification string: only valid ones accepted", "statement": "Whatever the stream, if an identification string is accepted it starts with SSH-2.0-, is at most 253 bytes long, contains no CR LF, was sent verbatim followed by CR LF in the stream, and exactly the bytes up to that CR LF were consumed; an over-long string or other protocol version is rejected; nothing panics.", "quantifier": "every input stream", "why_tests_cant": "All streams.", "anchors": ["nora_ssh/src/identifier.rs: parse", "nora_ssh_core/src/identifier.rs: Identifier::new"]}
{"id": "C22", "title": "Encrypted stream round-trip", "statement": "Any sequence of payloads sent over the encrypted transport is received by a peer holding the same keys as the same sequence of payloads, with both packet counters advancing in lockstep.", "quantifier": "every sequence of payloads, every padding, all keys, all start counters, every stale buffer content", "why_tests_cant": "Unbounded histories; and each packet's correctness depends on the counter state left by its predecessors.", "anchors": ["nora_ssh/src/host.rs: Out::send, In::recv", "nora_ssh_core/src/cipher/chacha20poly1305.rs: encrypt, decrypt_length, decrypt_data"]}
{"id": "C23", "title": "Nothing is released unauthenticated", "statement": "Receiving an encrypted packet returns a payload only if the trailing 16 bytes are the MAC of all preceding bytes (length field included) under this packet number's key; if the MAC does not match the receiver returns an error, leaves the data undecrypted and does not advance its counter.", "quantifier": "every input stream and cipher state", "why_tests_cant": "All forged packets.", "anchors": ["nora_ssh_core/src/cipher/chacha20poly1305.rs: decrypt_data, authenticate", "nora_ssh/src/host.rs: In::recv"]}
{"id": "C24", "title": "No keystream reuse", "statement": "In any history of fewer than 2^64 sent packets no two packets, and no two roles (length encryption, MAC key, payload encryption) inside one packet, use the same (key, nonce, block) of keystream under one key.", "quantifier": "every send history", "why_tests_cant": "History length is unbounded.", "anchors": ["nora_ssh_core/src/cipher/chacha20poly1305.rs: nonce, compute_tag, apply_data, encrypt"]}
{"id": "C25", "title": "Received sequence is a prefix of the sent sequence", "statement": "If MACs cannot be forged (a packet verifies under packet number n only if it is the n-th packet sent), then for any adversarial byte stream the payloads delivered are a prefix of the payloads sent: no reordering, replay, drop or insertion.", "quantifier": "every adversarial input stream, every sent sequence", "why_tests_cant": "Adversary behaviours are unbounded.", "anchors": ["nora_ssh/src/host.rs: In::recv", "nora_ssh_core/src/cipher/chacha20poly1305.rs"]}
{"id": "C26", "title": "Encrypted receive never panics", "statement": "Receiving from any byte stream with any cipher state and a buffer of at least 4 bytes returns a payload or an error, never panics, and never delivers bytes that were in the buffer before.", "quantifier": "every stream, buffer length and content, keys and counter", "why_tests_cant": "All ciphertexts/length values.", "anchors": ["nora_ssh/src/host.rs: In::recv", "nora_ssh_core/src/packet.rs: wrap_raw, into_payload"]}
{"id": "C27", "title": "Exchange hash transcript", "statement": "The session identifier is the hash of exactly the RFC 5656/8731 transcript: both identification strings, both KEXINIT payloads, the host key, both ephemeral keys as strings and the shared secret as mpint, in that order.", "quantifier": "every handshake transcript", "why_tests_cant": "Every length of every part.", "anchors": ["nora_ssh_core/src/message/key_exchange/ecdh.rs: digest", "nora_ssh/src/host.rs: handle_new_client"]}
{"id": "C28", "title": "Transcript encoding is injective", "statement": "Two handshakes whose hash inputs are equal agree on every transcript item (shared secret up to leading zeros), so the host signature covers all of them unambiguously.", "quantifier": "every pair of transcripts", "why_tests_cant": "Pairs of arbitrary byte strings.", "anchors": ["nora_ssh_core/src/message/key_exchange/ecdh.rs: digest"]}
{"id": "C29", "title": "Key derivation", "statement": "Key material of any requested number of blocks equals the RFC 4253 section 7.2 expansion K1 = HASH(K||H||X||session_id), Kn = HASH(K||H||K1..Kn-1), with letters A..F per purpose and direction, so purposes and directions never share a hash input for the first block.", "quantifier": "every secret, hash, output size, purpose and direction", "why_tests_cant": "Unbounded output length; all secrets incl. leading zeros/high bit.", "anchors": ["nora_ssh_core/src/key_exchange.rs: KeyMaterial::gen, digest_k1, digest_kn, new"]}
{"id": "C30", "title": "Algorithm negotiation", "statement": "The handshake proceeds past KEXINIT iff RFC 4253 negotiation (first client name also supported by the server) succeeds for key exchange, host key and both encryption lists, and then the negotiated algorithms are the ones used.", "quantifier": "every client KEXINIT", "why_tests_cant": "All name-lists.", "anchors": ["nora_ssh/src/host.rs: handle_new_client lines 165-189"]}
{"id": "C31", "title": "Handshake output and success condition", "statement": "Whatever the client sends, the server's bytes are a prefix of: identification line, KEXINIT packet, ECDH reply packet, NEWKEYS packet; the reply is only sent after a KEXINIT with acceptable algorithms and a 32-byte ECDH public key; success requires a client NEWKEYS; initial packet counters equal the number of packets each side has sent.", "quantifier": "every client byte stream", "why_tests_cant": "All streams, all stopping points.", "anchors": ["nora_ssh/src/host.rs: handle_new_client"]}
{"id": "C32", "title": "Handshake agreement with an RFC client", "statement": "A client that follows RFC 4253/8731 completes the handshake and ends up with the same session identifier and the same two directional keys as the server.", "quantifier": "every client identification string, algorithm lists containing the supported names, ephemeral keys, paddings", "why_tests_cant": "All values of all fields; needs symbolic Diffie-Hellman.", "anchors": ["nora_ssh/src/host.rs: handle_new_client"]}
{"id": "C33", "title": "Handshake survives any client", "statement": "Whatever bytes an unauthenticated client sends, the handshake ends with an error or a session, never a panic.", "quantifier": "every client byte stream", "why_tests_cant": "All streams.", "anchors": ["nora_ssh/src/host.rs: handle_new_client", "nora_ssh/src/packet.rs: parse"]}
{"id": "C34", "title": "No authentication bypass", "statement": "An authenticated client object exists, and a USERAUTH_SUCCESS is sent, only if the application's authenticate handler returned Ok for the user, service and credentials of the client's latest request; the returned user is that handler result.", "quantifier": "every client byte stream, every handler behaviour, every number of attempts", "why_tests_cant": "Unbounded attempt sequences and arbitrary handlers.", "anchors": ["nora_ssh/src/server.rs: authenticate_new_client"]}
{"id": "C35", "title": "Signature data is bound to session and request", "statement": "For public-key authentication the handler is given exactly the RFC 4252 section 7 data: this session's identifier and the user, service, algorithm and key blob of the request, the key and signature unwrapped from blobs whose algorithm names equal the request's; equal signature data implies equal session, user, service, algorithm and key.", "quantifier": "every request, session and handler", "why_tests_cant": "All field contents; injectivity over pairs.", "anchors": ["nora_ssh/src/server.rs: authenticate_new_client", "nora_ssh_core/src/message/userauth.rs: format_sign_data"]}
{"id": "C36", "title": "Key probes never authenticate", "statement": "A public-key probe (no signature) is answered with PK_OK echoing its algorithm and blob iff the handler knows the key, otherwise with FAILURE, and never leads to authentication by itself.", "quantifier": "every probe and handler", "why_tests_cant": "All blobs, any position in any history.", "anchors": ["nora_ssh/src/server.rs: authenticate_new_client"]}
{"id": "C37", "title": "One reply per authentication request", "statement": "As long as the session continues each request gets exactly one reply, in order: FAILURE listing publickey,password for a refused attempt, SUCCESS for the accepted one, after which no more requests are read.", "quantifier": "every history of requests", "why_tests_cant": "Unbounded histories.", "anchors": ["nora_ssh/src/server.rs: authenticate_new_client"]}
{"id": "C38", "title": "Authentication survives any client", "statement": "Whatever a client with established keys sends before being authenticated, the server ends with an error, keeps waiting or authenticates, never panics.", "quantifier": "every sequence of packets", "why_tests_cant": "All packets.", "anchors": ["nora_ssh/src/server.rs: authenticate_new_client"]}
{"id": "C39", "title": "Channel table behaves as a map", "statement": "The channel table behaves as a finite map with fresh-key allocation: insert returns an id not in use, lookups return what was last inserted under the id and not removed, removing one id affects no other, removed ids may be reused.", "quantifier": "every sequence of insert/remove/get operations", "why_tests_cant": "Unbounded operation sequences.", "anchors": ["nora_ssh/src/arena.rs: Arena"]}
{"id": "C40", "title": "Channel ids", "statement": "In every reachable state of a session each open channel has its own server-side id, and each open is confirmed to the client's number with the least unused id and the client's window and packet size.", "quantifier": "every history of client messages and process events", "why_tests_cant": "Unbounded histories.", "anchors": ["nora_ssh/src/server.rs: Client::receive"]}
{"id": "C41", "title": "Messages go to the right channel", "statement": "Every reply, data, eof, close and exit-status sent for a channel carries the peer's number given when that channel was opened.", "quantifier": "every history with any number of channels and reuse of ids", "why_tests_cant": "Interleavings of channels.", "anchors": ["nora_ssh/src/server.rs: Client::receive, Client::start"]}
{"id": "C42", "title": "want_reply is honoured", "statement": "A handled channel request gets exactly one success/failure reply if the client asked for one and none otherwise.", "quantifier": "every request in every state", "why_tests_cant": "All histories.", "anchors": ["nora_ssh/src/server.rs: Client::receive"]}
{"id": "C43", "title": "Commands run only on request", "statement": "The spawn handler is called exactly once per shell or exec request on an open channel, with the command bytes exactly as sent, and for no other message.", "quantifier": "every history of client messages", "why_tests_cant": "All histories.", "anchors": ["nora_ssh/src/server.rs: Client::receive"]}
{"id": "C44", "title": "Process output is delivered completely and in order", "statement": "For every interleaving of events, the data sent on a channel is a merge of the process's stdout and stderr bytes in order, all stdout bytes come before EOF, and EOF and CLOSE are sent exactly once and only after stdout ended.", "quantifier": "every schedule of reads, packets and exits, any chunking, any number of processes", "why_tests_cant": "All schedules.", "anchors": ["nora_ssh/src/server.rs: Client::start"]}
{"id": "C45", "title": "Channel input is delivered completely and in order", "statement": "Data the client sends on a channel reaches the process's standard input completely, in order and exactly once.", "quantifier": "every history and every behaviour of the process's input pipe", "why_tests_cant": "Short writes and interleavings.", "anchors": ["nora_ssh/src/server.rs: Client::receive (Data)"]}
{"id": "C46", "title": "Nothing is sent on a channel after CLOSE", "statement": "After the server has sent CHANNEL_CLOSE for a channel it sends nothing more on it.", "quantifier": "every schedule", "why_tests_cant": "Race between exit status, stderr and stdout EOF.", "anchors": ["nora_ssh/src/server.rs: Client::start"]}
{"id": "C47", "title": "Receiving is not disturbed by other events", "statement": "Process output and exit events interleaved with the arrival of client packets do not lose or corrupt client packets.", "quantifier": "every interleaving of byte arrivals and other events", "why_tests_cant": "Scheduling-dependent; needs all interleavings at byte granularity.", "anchors": ["nora_ssh/src/server.rs: Client::start (select!)", "nora_ssh/src/host.rs: In::recv"]}
{"id": "C48", "title": "Flow control", "statement": "The server never sends more channel data than the window the client granted.", "quantifier": "every history", "why_tests_cant": "All histories.", "anchors": ["nora_ssh/src/server.rs: Client::start, Client::receive"]}
{"id": "C49", "title": "Disconnect ends the session", "statement": "After a DISCONNECT from the client the session ends: no further handler call, write or send happens; IGNORE messages have no effect at all.", "quantifier": "every history", "why_tests_cant": "All histories.", "anchors": ["nora_ssh/src/server.rs: Client::receive, Client::start"]}
{"id": "C50", "title": "Session survives any client message", "statement": "Whatever message an authenticated client sends, the session handles it or ends with an error, never panics.", "quantifier": "every message in every reachable state", "why_tests_cant": "All messages and states.", "anchors": ["nora_ssh/src/server.rs: Client::receive"]}
{"id": "C51", "title": "Clients are isolated", "statement": "What one client does affects only that client's session: the others' states and replies are unchanged and the server keeps running.", "quantifier": "every interleaving of any number of clients' events", "why_tests_cant": "All interleavings.", "anchors": ["nora_ssh/src/server.rs: Server::start"]}
{"id": "C52", "title": "Write lock: mutual exclusion", "statement": "At most one guard of the local mutex exists at any time, and a poll returns a guard exactly when none exists.", "quantifier": "every interleaving of lock, poll, cancel and unlock by any number of tasks", "why_tests_cant": "All interleavings.", "anchors": ["nora_ssh/src/sync.rs: LocalMutex"]}
{"id": "C53", "title": "Write lock: no lost wake-ups", "statement": "Whenever the lock is free and a task is waiting for it, some waiting task has been woken and not yet polled.", "quantifier": "every interleaving of lock, poll, cancel and unlock by any number of tasks", "why_tests_cant": "All interleavings.", "anchors": ["nora_ssh/src/sync.rs: LocalMutexGuardFuture::poll, LocalMutexGuard::drop"]}
{"id": "C54", "title": "scp receive stores exactly the announced bytes", "statement": "In receive mode every stored file holds exactly the announced number of bytes taken from the stream right after its header, for any file size, and acknowledgements are sent at the protocol points only.", "quantifier": "every input stream, any number and sizes of files", "why_tests_cant": "All sizes around the 32 KiB chunking.", "anchors": ["nora_scp/src/main.rs: receive, transfer_file, read_header"]}
{"id": "C55", "title": "scp header parsing", "statement": "A header C<mode> <size> <name> followed by newline is parsed to exactly this mode, size and name, for every size below 2^64 and every name without spaces or newlines; malformed headers are errors.", "quantifier": "every mode, size, name", "why_tests_cant": "All sizes and names.", "anchors": ["nora_scp/src/main.rs: read_header"]}
{"id": "C56", "title": "scp send/receive interoperate", "statement": "What send mode emits for a list of files is accepted by receive mode and recreates the files.", "quantifier": "every list of files", "why_tests_cant": "All contents and sizes.", "anchors": ["nora_scp/src/main.rs: send, receive"]}
{"id": "C57", "title": "scp receive stays inside the target directory", "statement": "In directory mode only files directly inside the target directory are created, whatever names the sender uses.", "quantifier": "every header name", "why_tests_cant": "All names.", "anchors": ["nora_scp/src/main.rs: receive"]}
{"id": "C58", "title": "Example sshd decision logic", "statement": "The example server authenticates a client only with an ssh-ed25519 signature valid for the given message under the given key, never for none, and executes exactly the whitespace-separated words of an exec command.", "quantifier": "every user, key, signature, command", "why_tests_cant": "All inputs.", "anchors": ["nora_sshd/src/main.rs: authenticate, public_key_exists, spawn"]}
{"id": "C59", "title": "Client keys of small order are not rejected", "statement": "The server does not check the X25519 output: with a client key that gives the all-zero secret, the handshake succeeds and the session identifier and all keys are a function of the bytes on the wire (RFC 8731 section 3 requires an abort).", "quantifier": "every handshake with such a client key", "why_tests_cant": "Quantifies over all server secrets and transcripts.", "anchors": ["nora_ssh/src/host.rs: handle_new_client (diffie_hellman without was_contributory)"]}
{"id": "C60", "title": "Sent packets are well-formed and complete", "statement": "While a session goes on and no reply is interrupted, the bytes written to the client are exactly the encryptions of the sent messages, one packet each, with consecutive sequence numbers.", "quantifier": "every history, every schedule", "why_tests_cant": "Quantifies over all interleavings of replies and process output.", "anchors": ["nora_ssh/src/server.rs: Client::start, Client::receive", "nora_ssh/src/host.rs: Out::send"]}
{"id": "C61", "title": "End of input is passed on once", "statement": "When the client sends EOF or CLOSE for a channel whose process has a standard input, that input is closed at once; each standard input is closed at most once and gets no data afterwards.", "quantifier": "every history with any number of channels and processes", "why_tests_cant": "Needs the uniqueness of the owner of every input over all histories, with channel reuse and several processes per channel.", "anchors": ["nora_ssh/src/server.rs: Client::receive (Eof, Close, Request)"]}
{"id": "C62", "title": "Sessions make progress", "statement": "In a session without interruptions, every complete packet the client sends is received and handled (unless it is one on which the server panics or a handler fails), and whatever a running process does next (output, end of output, exit) is passed on.", "quantifier": "every reachable state of every session, every packet, every output", "why_tests_cant": "Rules out deadlock and forgotten streams in all states, not only after some histories.", "anchors": ["nora_ssh/src/server.rs: Client::start, Client::receive"]}
{"id": "C63", "title": "scp arguments", "statement": "Arguments are accepted unless one begins with a dash and is not -d, -f or -t; the mode is that of the last -f or -t, directory mode is on exactly if -d is given, all other arguments are the paths in order, and nothing is done if an argument is refused.", "quantifier": "every list of arguments", "why_tests_cant": "All lists of arguments, also with bytes that are not UTF-8.", "anchors": ["nora_scp/src/main.rs: start"]}
{"id": "C64", "title": "No process without authentication", "statement": "On every connection of a server, whatever its clients do and in whatever order they are served, anything that happens with a process happens only after the handshake was completed, a request for authentication was received, the handler returned a user for it and SUCCESS was sent; a process is started only for that user, and directly after a request of the same client for it.", "quantifier": "every schedule of every number of clients, every byte stream, all handlers", "why_tests_cant": "Quantifies over all streams of all clients and all interleavings, from accept to the start of the process.", "anchors": ["nora_ssh/src/server.rs: Server::start, authenticate_new_client, Client::start"]}
{"id": "C65", "title": "Output of a connection", "statement": "All bytes the server writes on a connection after the handshake are the packets, sealed with the keys of the handshake and consecutive sequence numbers from 3, of exactly the payloads it sent, in this order; a packet is written in part only if the write was dropped or at the very end.", "quantifier": "every schedule of every number of clients, every byte stream", "why_tests_cant": "The whole output of every connection as a function of its history; tests compare single packets.", "anchors": ["nora_ssh/src/server.rs: Server::start, Client::start", "nora_ssh/src/host.rs"]}
{"id": "C66", "title": "Random numbers", "statement": "Random bytes are used in order and each once: padding of KEXINIT, the 32 bytes of the secret key, padding of the reply, padding of NEWKEYS, and then the padding of each packet, of which there is as little as possible.", "quantifier": "every handshake and every connection, every random number generator", "why_tests_cant": "Reuse of random bytes shows only by comparing with the whole tape of the generator.", "anchors": ["nora_ssh/src/host.rs: handle_new_client", "nora_ssh_core/src/packet.rs: wrap", "nora_ssh/src/host.rs: Out::send"]}
{"id": "C67", "title": "Input of a connection", "statement": "The payloads that the server receives on a connection after the handshake are those of packets sealed with the keys of the handshake and consecutive sequence numbers from 3, in the order of the input, without gaps and without repetition; there are other bytes only where a read was dropped and at the very end.", "quantifier": "every schedule of every number of clients, every byte stream", "why_tests_cant": "All streams, including those an attacker has changed, through authentication and session.", "anchors": ["nora_ssh/src/server.rs", "nora_ssh/src/host.rs: In::recv"]}
{"id": "C68", "title": "From accept to the session", "statement": "A client of a running server that the sequential program authenticates is authenticated after finitely many steps, bounded by the length of its input, then is exactly where the loop of Client::start is after its further steps, whatever other clients do, and stops the server exactly if such a step panics; a client that follows the protocol gets there.", "quantifier": "every schedule of every number of clients, every client", "why_tests_cant": "All interleavings with all other clients.", "anchors": ["nora_ssh/src/server.rs: Server::start, authenticate_new_client, Client::start"]}
{"id": "C69", "title": "Cookie", "statement": "The cookie in the KEXINIT of the server is random (RFC 4253, 7.1).", "quantifier": "every handshake, every random number generator", "why_tests_cant": "That the cookie depends on the generator is a property of all generators.", "anchors": ["nora_ssh/src/host.rs: handle_new_client"]}
{"id": "C70", "title": "Integrity of a connection", "statement": "As long as no packet is forged in the input after the handshake, the payloads that the server has received from a client are, in order, without gaps and repetition, the first of those that the holder of the keys has sent, through authentication and session and whatever reads were dropped; a process is started only because of a request for it that the holder has sent, after one for authentication that the holder has sent.", "quantifier": "every schedule of every number of clients, every byte stream", "why_tests_cant": "All changes that an attacker can make to the stream, at every point of a connection.", "anchors": ["nora_ssh/src/server.rs", "nora_ssh/src/host.rs: In::recv"]}
{"id": "C71", "title": "The client can read what the server sent", "statement": "If no write was dropped, a client that has the keys and a buffer of 35000 bytes reads from what the server has written on a connection after the handshake exactly the payloads that the server has sent, in order; when the connection has ended at least nothing else.", "quantifier": "every schedule of every number of clients, every client", "why_tests_cant": "All conversations; sequence numbers, keys and sizes have to agree in all of them.", "anchors": ["nora_ssh/src/server.rs", "nora_ssh/src/host.rs: Out::send, In::recv"]}
{"id": "C72", "title": "Fairness of the mutex", "statement": "A future that waits for the mutex of the write half is woken after a number of releases that depends only on what happened until it began to wait, if futures that wait are not dropped or overtaken.", "quantifier": "all histories of lock, poll, drop and release by any number of futures", "why_tests_cant": "Unbounded histories; the defect needs steady contention.", "anchors": ["nora_ssh/src/sync.rs"]}
{"id": "C73", "title": "Packet numbers", "statement": "Each packet is encrypted and authenticated with its sequence number modulo 2^32, the number that RFC 4253 6.4 gives it.", "quantifier": "every sequence of packets sent on a connection, of every length", "why_tests_cant": "More than 2^32 packets would have to be sent.", "anchors": ["nora_ssh/src/host.rs: Out::send"]}
{"id": "C74", "title": "Channel types", "statement": "Only channels of the type session are confirmed; others are declined.", "quantifier": "every session, every CHANNEL_OPEN", "why_tests_cant": "All strings for the type, at each point of each session.", "anchors": ["nora_ssh/src/server.rs:364-382"]}
{"id": "C75", "title": "CLOSE is answered", "statement": "A CLOSE for an open channel is answered with CLOSE, unless the server has sent it before (RFC 4254 5.3).", "quantifier": "every session and every continuation of it", "why_tests_cant": "That no continuation has an answer cannot be seen from one run.", "anchors": ["nora_ssh/src/server.rs:323-330", "nora_ssh/src/server.rs:485"]}
{"id": "C76", "title": "One process for a channel", "statement": "At most one request for a shell or command succeeds for a channel while it is open (RFC 4254 6.5).", "quantifier": "every session, every two requests", "why_tests_cant": "All sequences of requests.", "anchors": ["nora_ssh/src/server.rs:384-470"]}
{"id": "C77", "title": "Exits are reported", "statement": "The exit status of every process that was started can be reported to the client, in a session without interruptions.", "quantifier": "every session, process and status", "why_tests_cant": "That a process is never waited for cannot be seen from one run.", "anchors": ["nora_ssh/src/server.rs:305-350", "nora_ssh/src/server.rs:457-470"]}
{"id": "C78", "title": "Services", "statement": "nora_sshd authenticates clients for the service ssh-connection only (RFC 4252 5).", "quantifier": "every byte stream, every ed25519", "why_tests_cant": "All service names.", "anchors": ["nora_sshd/src/main.rs:58-100", "nora_ssh/src/server.rs:203"]}
{"id": "C79", "title": "Attempts are limited", "statement": "There is a limit for the number of refused attempts of a client that is authenticated in the end (RFC 4252 4).", "quantifier": "every byte stream, all handlers, every limit below 10^9", "why_tests_cant": "Each limit would need another test.", "anchors": ["nora_ssh/src/server.rs:125-245"]}
{"id": "C80", "title": "Output of processes arrives at the client", "statement": "As long as a session goes on and no reply was interrupted, a client that has the keys and decrypts what the server has written gets for each of its channels exactly the output of the processes of that channel, in the order in which the server read it; before an EOF it has got all that was written until the standard output ended.", "quantifier": "every session, every schedule without interrupted writes, every client state with these keys, every buffer of 35000 bytes", "why_tests_cant": "All interleavings of processes, packets and exits, with all outputs, through encryption and decryption.", "anchors": ["nora_ssh/src/server.rs:290-352", "nora_ssh/src/host.rs: Out::send, In::recv"]}
{"id": "C81", "title": "Input from the client arrives at the process", "statement": "A process started on a channel has got exactly the data in those packets sent by the client for this channel that the server has received since its start, if the client has sent only data on the channel since, processes take all they are given with one write, and no future is dropped while a packet is read or given to a process.", "quantifier": "every session, every stream of encrypted packets, any number of other channels and processes", "why_tests_cant": "All interleavings with other channels, which are opened, closed and reused meanwhile.", "anchors": ["nora_ssh/src/server.rs:354-475", "nora_ssh/src/host.rs: In::recv"]}
{"id": "C82", "title": "Window for the client's data", "statement": "When the client has used up the window of an open channel, the server can come to send WINDOW_ADJUST (RFC 4254 5.2).", "quantifier": "every session, every continuation of it", "why_tests_cant": "That a message is never sent cannot be observed in finitely many runs.", "anchors": ["nora_ssh/src/server.rs:364-382", "nora_ssh/src/server.rs:276-506"]}
{"id": "C83", "title": "Standard error output can be told apart", "statement": "What a process writes to its standard error output is sent as EXTENDED_DATA of type 1 (RFC 4254 5.2).", "quantifier": "every session and schedule", "why_tests_cant": "All interleavings of the two outputs.", "anchors": ["nora_ssh/src/server.rs:276-288", "nora_ssh/src/server.rs:332-337"]}
{"id": "C84", "title": "Unknown messages", "statement": "A message with an unknown number is answered with UNIMPLEMENTED and otherwise ignored (RFC 4253 11.4).", "quantifier": "every session, every unknown number, every content", "why_tests_cant": "All packets in all states.", "anchors": ["nora_ssh/src/server.rs:354-363", "nora_ssh/src/server.rs:488-506"]}
{"id": "C85", "title": "Key re-exchange", "statement": "After authentication the client can ask for another key exchange with KEXINIT at any time (RFC 4253 9).", "quantifier": "every session, every KEXINIT", "why_tests_cant": "All states in which KEXINIT may arrive.", "anchors": ["nora_ssh/src/server.rs:488-506"]}
{"id": "C86", "title": "Authentication requests after success", "statement": "Authentication requests after SUCCESS are silently ignored (RFC 4252 5.1).", "quantifier": "every session, every request", "why_tests_cant": "All states in which a request may arrive.", "anchors": ["nora_ssh/src/server.rs:488-506"]}
{"id": "C87", "title": "Channels are limited", "statement": "There is a limit for the number of channels open at the same time.", "quantifier": "every session, every limit below 10^9", "why_tests_cant": "Each limit would need another test.", "anchors": ["nora_ssh/src/server.rs:364-382", "nora_ssh/src/arena.rs"]}
{"id": "C88", "title": "Reused channel numbers", "statement": "Data sent on a channel was written by a process started since the channel was opened, if the client uses a number again only after CLOSE was sent and received.", "quantifier": "every session of such a client", "why_tests_cant": "All interleavings of processes and of channels opened, closed and opened again.", "anchors": ["nora_ssh/src/server.rs:308-316", "nora_ssh/src/server.rs:452-469", "nora_ssh/src/server.rs:485-487"]}
{"id": "C89", "title": "Maximal packet size", "statement": "The data in one message is not longer than the client allows for the channel (RFC 4254 5.2).", "quantifier": "every session, every channel", "why_tests_cant": "All sizes and outputs.", "anchors": ["nora_ssh/src/server.rs:319-349", "nora_ssh/src/server.rs:364-382"]}
{"id": "C90", "title": "The example server starts and names itself", "statement": "nora_sshd serves exactly if it can bind its port (else it panics). Its identification has the form of RFC 4253 4.2, and each client that is sent anything is sent this identification and CR LF first.", "quantifier": "every environment, every run of the server, every client", "why_tests_cant": "All runs of the server with any number of clients.", "anchors": ["nora_sshd/src/main.rs:17-31", "nora_ssh_core/src/identifier.rs:7-9", "nora_ssh/src/host.rs:111-113"]}
{"id": "C91", "title": "The host key is secret", "statement": "The host key of nora_sshd depends on the randomness of the machine it runs on.", "quantifier": "every key generator, all randomness", "why_tests_cant": "A statement about all runs on all machines.", "anchors": ["nora_sshd/src/main.rs:19-21"]}
{"id": "C92", "title": "Only the keys of a user", "statement": "Not everyone who has some key gets in as everyone: nora_sshd refuses a user with a key that is not one of that user, even if the signature is valid.", "quantifier": "every user, key and signature", "why_tests_cant": "All keys and users.", "anchors": ["nora_sshd/src/main.rs:72-96"]}
{"id": "C93", "title": "Users have their own rights", "statement": "What nora_sshd starts for a user depends on who the user is.", "quantifier": "every two users, every session", "why_tests_cant": "Two runs are compared, for all inputs and schedules.", "anchors": ["nora_sshd/src/main.rs:98-149"]}
{"id": "C94", "title": "Strangers cannot stop the example server", "statement": "Clients that are not authenticated do not stop nora_sshd.", "quantifier": "every run of the server, any number of clients", "why_tests_cant": "All clients and schedules.", "anchors": ["nora_sshd/src/main.rs:72-96", "nora_ssh/src/server.rs:59-241"]}
{"id": "C95", "title": "The specification of a session is exact", "statement": "When writes succeed and no future is dropped, the event logs of the sessions that go on, and the results and logs of those that end, are exactly the ones that the specification of a session allows for the packets the client has sent.", "quantifier": "every list of packets, every handlers, every log and result, in both directions", "why_tests_cant": "Both directions range over all sessions and all logs.", "anchors": ["nora_ssh/src/server.rs:267-508"]}
{"id": "C96", "title": "A command can be run", "statement": "In every uninterrupted session a client that opens a channel and asks for a command can have it run to its end: for every output in pieces and every exit status the session can continue such that the client decrypts exactly the confirmation, the success, the output in order, EOF, CLOSE and the exit status.", "quantifier": "every session so far, every command, output and exit status", "why_tests_cant": "All prior histories and all outputs.", "anchors": ["nora_ssh/src/server.rs:267-508"]}
{"id": "C97", "title": "The specification of the authentication phase is exact", "statement": "After a handshake, when writes succeed, the authentication of a client ends with a result and a list of events if and only if the specification of this phase allows them for the packets the client has sent; for every stream of the client, whatever it holds, there is exactly one such result and list of events.", "quantifier": "every stream of bytes from the client, every handlers, every result and list of events, in both directions", "why_tests_cant": "Both directions range over all streams and all lists of events.", "anchors": ["nora_ssh/src/server.rs:81-236"]}
{"id": "C98", "title": "Exactly which encrypted packets are refused", "statement": "Receiving a packet fails exactly for the streams that are too short for a packet, whose packet does not fit the buffer, whose authentication code is not the one of the packet, whose length is not a multiple of 8, or whose padding is longer than the packet; with the error for this case and exactly these bytes consumed. A stream starts with a packet or with one that is refused, never with both, and is refused for one reason only.", "quantifier": "every stream, key, packet number and buffer", "why_tests_cant": "All streams and buffers, and both directions.", "anchors": ["nora_ssh/src/host.rs:338-365", "nora_ssh_core/src/packet.rs:67-81"]}
{"id": "C99", "title": "The handshake, exactly", "statement": "For every stream of bytes from a client there is exactly one outcome of the handshake, given by the identification string and the three packets it starts with: an error, which is determined, a panic, or a session; together with what the server has sent and, for a session, what of the stream is left for it. Each byte that the server sends, including padding, its ephemeral key and the signature of the exchange hash, is determined by what the client has sent and by the random bytes. The handshake has this outcome.", "quantifier": "every stream, primitives, random numbers and identification string of the server; writes that succeed", "why_tests_cant": "All streams, and both directions: no stream has another outcome than the specification says.", "anchors": ["nora_ssh/src/host.rs:91-301", "nora_ssh/src/identifier.rs:25-94", "nora_ssh/src/packet.rs:9-30"]}
{"id": "C100", "title": "Whole connections, exactly", "statement": "For every stream of bytes from a client, the events on its connection are exactly those of one composed specification: a handshake that agrees on the session identifier and keys that the transcript, the secret key of the server and that of the client give; then packets sealed with these keys, numbered from 3 on, with which the client is authenticated; then packets of a session. There is a run of the server, with any other clients, in which the client is in the session of a user after some events, if and only if the specification says so; and one in which its connection ends after some events, and stops the server or does not, if and only if the specification says so.", "quantifier": "every stream, configuration, user, list of events, and run of the server with any number of clients, in both directions; writes that succeed, no interrupted sends or receives, packet counters not exhausted", "why_tests_cant": "All streams and all schedules of all clients, and both directions.", "anchors": ["nora_ssh/src/server.rs:59-351", "nora_ssh/src/host.rs:91-301", "nora_ssh_core/src/packet.rs:67-81", "nora_ssh/src/identifier.rs:25-94"]}
{"id": "C101", "title": "Connections that fail", "statement": "If the connection of a client takes only n more bytes, the client receives exactly the first n of the bytes it would receive if all were taken. If these are all, nothing else is different. If not, its connection ends with the write that fails, and up to then nothing has happened that would not have happened otherwise. The server goes on if that write is in the handshake (the error is that of the write) or in the session, and stops if it is in the authentication.", "quantifier": "every configuration, connection, number n, list of steps of the client with any interruptions, and run of the server with any number of clients", "why_tests_cant": "All positions at which a connection can fail, in all exchanges and for all schedules.", "anchors": ["nora_ssh/src/host.rs:91-301", "nora_ssh/src/host.rs:305-334", "nora_ssh/src/server.rs:59-351"]}
{"id": "C102", "title": "The error of a payload", "statement": "Each payload that is not a message has exactly one error, by the wire format: no number, an unknown number with the range it lies in, too few bytes (with more of them it would be a message of this kind), bytes left over, or a field with a wrong content (names, UTF-8, ASCII, the four bytes zero). Where more than one applies, the order in which the fields are checked decides: e.g. a list of names in a KEXINIT is refused as soon as it is complete, the text of a DEBUG before bytes left over, that of a refused channel after them. Message::parse returns this error.", "quantifier": "every payload and every error", "why_tests_cant": "All payloads, and both directions: a payload is refused with an error if and only if it has that error.", "anchors": ["nora_ssh_core/src/message/mod.rs:52-92", "nora_ssh_core/src/message/mod.rs:119-134", "nora_ssh_core/src/message/key_exchange/mod.rs:28-73", "nora_ssh_core/src/message/userauth.rs:146-201", "nora_ssh_core/src/message/channel/mod.rs:35-66"]}
{"id": "C103", "title": "Every byte that is sent", "statement": "All bytes that a connected client has received are determined: the identification string, then the three packets of the handshake and then one sealed packet for each payload of the session, with consecutive numbers from 3 and the key of this direction, nothing in between and nothing after; the padding is the least possible and, like the secret key, taken from the random numbers in this order, each used once. Who has the key decrypts exactly the payloads. In particular a client that gets in and runs a command gets the replies to its authentication, the confirmation of its channel, the success, all of the output in order, EOF, CLOSE and the exit status, whatever other clients do.", "quantifier": "every configuration, run of the server with any number of clients, connection of it, stream of the client, random numbers, output of the command in any pieces, and exit status", "why_tests_cant": "All streams, all schedules and all outputs; equality of all bytes with an independent specification for unbounded exchanges.", "anchors": ["nora_ssh/src/host.rs:91-301", "nora_ssh/src/server.rs:59-351", "nora_ssh/src/server.rs:259-508", "nora_ssh_core/src/cipher/chacha20poly1305.rs:23-100", "nora_ssh_core/src/packet.rs:7-117"]}
{"id": "C104", "title": "Who gets in and who stops the example server", "statement": "For each stream of bytes that a client may send to the example server exactly one of three things happens, and which one is determined by a short specification of the stream alone: it gets in as a user, it is hung up on, or it stops the server for everybody. After the handshake it stops the server if its first packet is missing or does not ask for the authentication service, or if, after any number of requests that are merely refused or answered, it sends a password, a message that is not about authentication, a method that is not implemented, too much to be signed, a question about an ed25519 key whose answer does not fit 256 bytes, or a valid signature for a user whose name is not UTF-8. It gets in exactly with a valid signature for a user whose name is UTF-8. If nobody gets in, the server stops if and only if such a client is among its clients (or accept fails).", "quantifier": "every ed25519, environment and set of primitives, every stream of bytes of a client, every random numbers, and every run of the server with any number of clients", "why_tests_cant": "All streams of unbounded length, in both directions: that nothing else stops the server is a statement about infinitely many inputs.", "anchors": ["nora_sshd/src/main.rs:18-96", "nora_ssh/src/server.rs:59-256", "nora_ssh/src/host.rs:91-301"]}
{"id": "C105", "title": "What a client that got in can do to the example server", "statement": "For a request to run a command the example server starts the program and arguments that are the words of the command, for a shell the program of the environment variable SHELL, with all three streams connected; if there are no words, no SHELL, or the program cannot be started, the server stops. A client that has got in stops the server after given events if and only if its packets lead to a session with these events and the last of them are: a packet that is not parsed or supported or for which there is no channel or process, such a request, data for a process that does not take any, output of a process that cannot be read, or a process that cannot be waited for; nothing else stops it.", "quantifier": "every environment, ed25519 and set of primitives, every stream of bytes of a client, every run of the server with any number of clients and every order of events", "why_tests_cant": "All commands, all sessions of unbounded length and all schedules, in both directions.", "anchors": ["nora_sshd/src/main.rs:98-149", "nora_ssh/src/server.rs:259-508"]}
{"id": "C106", "title": "What scp does, exactly", "statement": "For every list of arguments, every input and every behaviour of the operating system the program scp ends in exactly one specified way, with the specified error, has done exactly the specified operations in order (reads, writes in pieces of 32768 bytes, directories and files created, acknowledgements, output) and leaves the specified rest of its input: first lines are headers or are refused because of their letter, UTF-8, missing fields or size; the first operation that fails ends the program; content is followed by a byte 0; the name of a file that is sent is the last part of its path.", "quantifier": "every list of arguments, every input of any length, every operating system that may refuse any operation depending on everything that has happened", "why_tests_cant": "All inputs, all sizes up to 2^64 and every pattern of failing operations, in both directions.", "anchors": ["nora_scp/src/main.rs:28-184"]}
{"id": "C107", "title": "The exit status of scp", "statement": "The exit status of scp is 0 exactly if it was successful.", "quantifier": "every list of arguments, input and operating system", "why_tests_cant": "That every error of any kind has the status of a success, and that nothing but the named panics has another one, is about all inputs and environments.", "anchors": ["nora_scp/src/main.rs:28-37"]}
{"id": "C108", "title": "A client and a program can talk to each other", "statement": "If a client opens a channel and asks for a command that can be started, then for every list of turns, in each of which either a packet with data of the client arrives or the program writes to its standard output or standard error, and every exit status, the server can be driven through exactly these turns: the program is given exactly the data in order, and the client is sent exactly the confirmation, the success reply if asked for, each piece of output in order, the end of the output, the close and the exit status, which it can decrypt; from the first byte of the connection, in every run of the server whatever the other clients do.", "quantifier": "every configuration, client, command, list of turns with any data, and exit status; every interleaving with other clients", "why_tests_cant": "Any number of turns in any order with any data and any other clients.", "anchors": ["nora_ssh/src/server.rs:259-508", "nora_ssh/src/server.rs:59-258"]}
{"id": "C109", "title": "A file copied over the example server with scp", "statement": "A client that gets into the example server, asks for `scp -t path`, and sends a header and the content and the byte 0, divided into packets in any way, has its file copied: if the program can be started and no operation fails, scp creates one file with exactly this path and content and exits with the status 0, the session and the program fit together (each reads only what the other has sent before), and the client decrypts exactly three acknowledgements, the end of the output and the exit status. And in every session, whatever is sent and whatever fails, once the third acknowledgement of `scp -t path` has been taken from it, the bytes given to it begin with a header, as many bytes as it says and a byte 0, and it has created one file with exactly this path and these bytes.", "quantifier": "every path, mode, name and content of fewer than 2^64 bytes, every division into packets, every client and interleaving with other clients; for what is acknowledged also every operating system and input", "why_tests_cant": "All contents and divisions into packets, and all patterns of failing operations, across three programs.", "anchors": ["nora_scp/src/main.rs:28-184", "nora_sshd/src/main.rs:98-149", "nora_ssh/src/server.rs:259-508"]}
{"id": "C110", "title": "Clients that nobody has let in get little", "statement": "In any run of the server, whether it has stopped or not and whether writes succeed or not: as long as a client has not been authenticated, everything that was sent to it is at most 466 bytes more than the identification string of the server, for the handshake, and after that at most 13 bytes for each 11 bytes that were read from it after the handshake. The ratio cannot be improved: for each n there is a client that sends n+1 packets of 44 bytes after the handshake and gets 52 n + 44 bytes.", "quantifier": "every configuration, run of the server, client and moment of it, and every n", "why_tests_cant": "All streams of all strangers, of any length, in every interleaving with others.", "anchors": ["nora_ssh/src/server.rs:59-258", "nora_ssh/src/host.rs:91-301"]}
{"id": "C111", "title": "Where the clients are that have not been authenticated yet, exactly", "statement": "There is a run of the server in which the handshake of a client is done, its authentication is not, certain events have happened and a certain rest of its stream is not yet read, if and only if its stream starts with a handshake, and then either nothing more was read, or the client has asked for the service and made requests, in packets sealed with the keys agreed on, each of which was answered as it should be, none of which was granted, and these are the events. Other clients do not matter.", "quantifier": "every configuration, stream of a client with fewer than 2^64 bytes, events and rest; every interleaving with other clients", "why_tests_cant": "An equivalence over all streams, event sequences and runs.", "anchors": ["nora_ssh/src/server.rs:59-258", "nora_ssh/src/host.rs:91-301"]}
{"id": "C112", "title": "A signature is for one connection: nobody is in the middle", "statement": "Whenever the handler of a connection is asked to accept a public key, the data that must have been signed contain the hash of the transcript of this connection: the identification strings, both KEXINIT messages, the host key, both ephemeral keys and the shared secret, from which also the keys of the connection come. If someone has signed these data for a connection as they have seen it, then they have asked for the same user, service, algorithm and key, and have seen the same transcript as this server, so they have the same keys; or the two transcripts are a collision of the hash. In particular two connections, of one or two servers, for which the same data are signed have the same transcript, or the two transcripts are a collision.", "quantifier": "every configuration, run, client, transcript, and pair of servers and runs", "why_tests_cant": "All transcripts that an attacker between client and server may produce, and pairs of arbitrary runs.", "anchors": ["nora_ssh/src/server.rs:166-205", "nora_ssh/src/host.rs:109-286", "nora_ssh_core/src/message/key_exchange/ecdh.rs: digest"]}
{"id": "C113", "title": "Both sides are authenticated to each other", "statement": "The reply that the server sends on a connection has the host key and the signature of the hash of the transcript of this connection, for every client, whatever it sends afterwards, and nothing else is signed. Therefore, if signatures of the host cannot be forged, a client that accepts one for the transcript that it has seen shares this transcript with a connection of the server, and if this connection becomes a session, it has the keys for this transcript; or the transcripts are a collision of the hash. In the other direction: if the example server has a process for a client, this client has asked with some key; and if the owner of this key signs only in sessions of their own and their signatures cannot be forged, then they have asked for this user and service in a session with the transcript, and so the keys, of this very connection, or the transcripts are a collision. If also the packets of this session cannot be forged, all that the server has received from this client was sent by the owner of the key in this session, in this order.", "quantifier": "every configuration, run, connection, transcript of a client, set of honest keys and signers", "why_tests_cant": "It is a statement about everything an attacker between client and server can do, under an assumption about signatures that cannot be tested.", "anchors": ["nora_ssh/src/host.rs:109-286", "nora_ssh/src/server.rs:81-241", "nora_sshd/src/main.rs:72-136"]}
{"id": "C114", "title": "At every moment each connection is where the specification has it", "statement": "Take any run of the server, with any number of clients, in any order, and whether it is still running or not. Each connection to which writes succeed and whose reads are not dropped has just been accepted and nothing has happened yet; or its handshake is done and what has happened is a legal part of an authentication in which nobody was let in, and what is left of its input is what the specification says; or it is in the session of a user that was let in, with the events of a legal session; or it has ended, in one of the ways that the specification lists, and if this way stops the server, the server has stopped. If the server has stopped and could accept connections, there is a connection that has ended in a way that stops it.", "quantifier": "every configuration, schedule, number of clients and connection, running or stopped", "why_tests_cant": "It is about all interleavings of any number of clients.", "anchors": ["nora_ssh/src/server.rs:55-80", "nora_ssh/src/server.rs:81-241", "nora_ssh/src/server.rs:289-506", "nora_ssh/src/host.rs:92-287"]}
{"id": "C115", "title": "A client whose read was interrupted is never heard again", "statement": "`In::recv` is not cancel safe, and `select!` drops it whenever a process has output: the bytes of a packet that it had read by then are lost. If the input of a client has each of its packets once and nothing forged, and more of it was read than the packets that were received, then the server never receives another payload from this client, whatever all the clients and processes do. In particular, this holds from the first step on in which some input is read and no packet received. The connection itself can go on.", "quantifier": "every configuration, run, continuation of it, connection, sequence of packets of the client and moment of the interruption", "why_tests_cant": "It is about every continuation of a run, and the moment at which a read is interrupted depends on the scheduler.", "anchors": ["nora_ssh/src/server.rs:304-351", "nora_ssh/src/server.rs:362-380", "nora_ssh/src/host.rs:336-380"]}
{"id": "C116", "title": "What a client reads when writes were dropped", "statement": "`select!` can drop the future that writes a reply, after a part of the packet was written; the number of the packet is used up and the connection goes on. After the handshake the server has written, for each payload that it has sent, a packet or the beginning of one, in this order: less than a whole packet only if a write was dropped, or for the last payload of a connection that has ended. A client with the keys and a buffer of 35000 bytes reads all payloads up to the first packet of which a part is missing. If nothing in what was written is forged, it never reads anything else: neither what the server has sent later, or sends in any continuation of the run, nor anything that it has not sent.", "quantifier": "every configuration, run, connection, set of dropped writes, client buffer and number of reads", "why_tests_cant": "It is about every run and every place at which a write can be dropped, which depends on the scheduler.", "anchors": ["nora_ssh/src/server.rs:304-351", "nora_ssh/src/server.rs:267-275", "nora_ssh/src/server.rs:352-506", "nora_ssh/src/host.rs:303-330"]}
{"id": "C117", "title": "A file fetched over the example server with scp", "statement": "A client that gets into the example server and asks for `scp -f path` can take the file: what it decrypts is a header with the size of the content, the content and the byte 0, as in C109, and the end of the output and the exit status. And in every session, whatever is sent and whatever fails, what has been taken from `scp -f path` is a beginning of a header with the name of the file and its content.", "quantifier": "every configuration of the example server, client, path, content, division into pieces, packets sent by the client in between, and behaviour of the other clients; every operating system", "why_tests_cant": "Every content, every division and every interleaving of session and program.", "anchors": ["nora_scp/src/main.rs:164-184", "nora_sshd/src/main.rs", "nora_ssh/src/server.rs:304-351"]}
{"id": "C118", "title": "Any number of files copied over the example server with scp", "statement": "A client that gets into the example server, asks for `scp -t` with any number of paths, and sends for each path a header and the content and the byte 0, divided into packets in any way, has its files copied: if the program can be started and no operation fails, scp creates exactly these files in this order, each with its path and content, and exits with the status 0, the session and the program fit together (each reads only what the other has sent before), and the client decrypts exactly one acknowledgement and two more for each file, the end of the output and the exit status. And in every session, whatever is sent and whatever fails, once 2k+1 acknowledgements of `scp -t` with paths have been taken from it, there are at least k paths, the bytes given to it begin with k files (a header, as many bytes as it says, a byte 0), and the first k files that it has created have exactly the first k paths and these contents. With `-d` and a directory likewise: then scp has created the directory and gone into it, and the first k files have exactly the names in the k headers and these contents. And the same holds once 2k+1 bytes of data have been sent to a channel of the client, however the session is interrupted, if `scp -t` is the only process whose output goes there and it has written no errors.", "quantifier": "every number of files, every path, mode, name and content of fewer than 2^64 bytes, every division into packets, every client and interleaving with other clients; for what is acknowledged also every operating system, input, moment of the session and k", "why_tests_cant": "All numbers of files, contents and divisions into packets, and all patterns of failing operations, across three programs.", "anchors": ["nora_scp/src/main.rs:28-162", "nora_sshd/src/main.rs:98-149", "nora_ssh/src/server.rs:259-508"]}
