# nora_ssh: formal model in Lean 4

## What is here

* `properties.jsonl`   the semantic properties (C01, C02, ...).
* `lean/Verif/Model/`  the model: one definition per Rust function, each citing the file and lines it models.
* `lean/Verif/Spec/`   small independent specifications (RFC encodings, RFC negotiation, abstract maps, ...). They do not use the model's functions (only its data types).
* `lean/Verif/Lemmas/` helper lemmas and proofs.
* `lean/Verif/Props/`  the property theorems, with non-vacuity examples beside them.
* `MANIFEST.json`      property -> theorems.
* `seeded/LOG.jsonl`   wrong programs tried against the theorems.

## Trusted base

* Lean 4.33.0's kernel, and the axioms `propext`, `Classical.choice`, `Quot.sound` (at most; per-theorem list at the end).
  No axioms of our own, no `sorry`, no `native_decide`/`bv_decide`.
* The reading of the Rust code into `Verif/Model` (cited line by line).
* The specifications in `Verif/Spec`, i.e. that they say what the English property says.

### Modelling conventions

* `u8`/`u32`/`u64` are Lean's `UInt8`/`UInt32`/`UInt64`. `usize` is `Nat` (64-bit target; every sum in the code is of
  slice lengths and u32 values, so it does not overflow); `usize` subtraction that would underflow is a panic.
  The packet counter of the cipher (`u64`, `self.counter += 1`) is checked as in a debug build: at 2^64 - 1 it panics.
* `&[u8]` is `List UInt8`. A `&mut [u8]` output buffer is its old content in, (count, written prefix, rest) out.
  If a writer returns `None` the content of the buffer is not modelled (every caller in the repo discards it).
* `R ε α` is the outcome of a Rust function: `ok`, `err e` (`None` is `err ()`), or `panic`
  (`unwrap` on None/Err, `todo!()`, `assert!`, slice out of range, arithmetic underflow in a debug build).
* `&str` is its bytes; validity is an explicit predicate (`Utf8.valid`, the standard library's validator, C12).
* Cryptographic primitives of other crates (ChaCha20 keystream, Poly1305, SHA-256, X25519, ECDSA, Ed25519) are
  arbitrary functions with the right output lengths, bundled in `structure Crypto` (and `Ed25519` for the example
  server). Theorems hold for every such bundle. What is needed beyond that is a hypothesis of the theorem that needs it:
  commuting Diffie-Hellman (C32), `NoForgery` about the byte stream of the adversary (C25), different keys of the two
  halves of a cipher (C24), collisions as an explicit alternative (C28).
* The random generator is an arbitrary infinite tape of bytes (`Tape`), read from the front.
* A connection is `IoSt`: the bytes the peer will still send before the stream ends, the bytes written so far, how many more
  bytes can be written before writes fail (`none`: never), the tape, and a log of events. The log is not part of the
  code; it records what was sent, received, asked of handlers and done to processes, so that properties can speak of it.
  Nothing in the model reads it except the handlers.
* `read_exact` fails at the end of the stream and has then consumed the rest; `write_all` writes a prefix if it fails.
* Application handlers are arbitrary functions of the whole log and their arguments, and may panic. Theorems hold for all of them.
* Loops of the code with no bound (authentication, scp directory mode) are written with a fuel that is larger than the rest
  of the input; `Server.loop_eq` and `Scp.dirLoop_eq` prove that the fuel never runs out, i.e. that they satisfy the loop equation.

### How concurrency is modelled

* Everything of one client runs in one future, and `Server::start` polls all futures from one task. Nothing runs in
  parallel; what is left of concurrency is the order in which the branches of `select!` complete.
* A session (`Client.steps`) takes a schedule: a list of steps. A step is either one complete iteration of
  `receive`, or the completion of another branch (output, end of output, exit of a process), together with the place where the future
  `receive`, which is dropped then, was waiting (`Cut`): not started, after `n` bytes of a packet, in the handler `spawn`,
  in the write to a standard input, after `n` bytes of a reply. Theorems are for all schedules, or for all those without
  certain cuts, which is then a hypothesis (`Spec.Drops`, `Spec.Smooth`) and the reason for a `_partial`.
* Steps that are impossible (a process that does not exist, bytes that were not sent) do nothing, so that
  every list is a schedule.
* A process writes to its pipes what the schedule says; a read returns at most 256 bytes (server.rs:319).
* The server (`Server.run`) takes a list of operations: a new connection, or a step of client `i`.
  A panic in any step unwinds through `start`, and all clients are gone.
* The mutex (`Sync.World`) is modelled on its own, for any number of futures, wakers and orders. In the session it is never contended.

### Not modelled

* Memory safety of the one `unsafe` block (`key_exchange.rs:78`), constant-time behaviour, performance, memory exhaustion.
* The primitives' inner workings; the `futures` executor and `select!`'s pseudo-random fairness; the OS (processes, TCP, file system
  semantics beyond "create/overwrite this path").
* The size of the channel table beyond 2^32 entries, other than that the conversion of the index panics.
* `fmt::Debug` implementations; `client.rs` (empty); the output of `eprintln!`.

## How each property is proved

| id | model | how |
|----|-------|-----|
| C01-C07 | `Model/Data`, `Model/Message`, `KexMsg`, `UserAuth`, `Channel`: every `parse`/`serialize` of `message/` | `Spec/Wire`: relational grammar and encoder. Each reader is characterised by an iff against the grammar, each writer by an exact equation with the encoder; compose |
| C08, C09 | `Model/Session` | same technique |
| C10 | `Model/Data` NameList | induction on the list against the split at commas |
| C11 | `make_pos_mpint` | value lemma by induction; minimality |
| C12 | `Model/Utf8` (the standard library's table) | equivalence with Lean core's UTF-8 encoder of `List Char` |
| C13-C16 | `Model/Packet` | arithmetic on block rounding (`omega` per block size) |
| C17, C18 | `Model/PacketIo` | equation for the reader; induction over the packet list |
| C19-C21 | `Model/Identifier` | invariant of the two loops by induction on the stream; the accepted streams as a grammar (`C21_exact`), and the others (`C21_errors`) |
| C22-C26 | `Model/Cipher`, `Model/Transport` | xor involution; induction over packets; history invariant on counters |
| C27-C29 | `Model/Kex` | equations with the RFC's transcript, injectivity of length-prefixed encodings |
| C30-C33, C59 | `Model/Host` | equations for the four messages; the exact set of streams that panic |
| C34-C38 | `Model/Auth` | a relation `Spec.Auth` between log and result, by induction over the iterations; `AuthRun` builds runs for the completeness half |
| C39 | `Model/Arena` | refinement to finite maps |
| C40-C50, C60-C62 | `Model/Client` | one invariant over all schedules (`Lemmas/Conn*`), which links state and log; then properties of logs |
| C51 | `Model/Server` | every client's state is a function of its own operations (`Spec.alone`), by induction; `Spec.Alone` identifies it with the functions C34-C50 are about |
| C52, C53 | `Model/Sync` | invariants over all interleavings of polls, drops and cancellations |
| C54-C57, C63 | `Model/Scp` | loop invariants; the log of file operations against a small spec of the protocol |
| C64 | `Model/Server` | the logs of C34-C37 and C43 joined along `Spec.Alone` (`Lemmas/Whole`) |
| C65-C67 | `Model/Transport`, `Client`, `Server` | `Lemmas/Flow`: a relation between a program, what it reads and writes and the random numbers it uses, closed under sequencing; then over all schedules |
| C68 | `Model/Server` | the number of steps of the authentication does not depend on them; then `Spec.alone` is `Client.steps` |
| C69 | `Model/Host` | from C66_handshake |
| C70 | `Model/Server`, `Model/Cipher` | C67; assumption on the MAC as in C25 (`NoForgery`): no packet in this input verifies unless it is the one that was sent with that number |
| C71 | `Model/Server`, `Model/Cipher` | `Spec.Written` without dropped writes is `Spec.Stream`; then C22 |
| C72 | `Model/Sync` | the queue is sorted by the time of the first poll; the refutation is a run for every number of rounds |
| C73 | `Model/Cipher` | the packets of `sendAll` by position; for a connection from C65 |
| C74-C77 | `Model/Client` | from C40-C44, C61 and C62; the witnesses are concrete sessions (`Props/Rfc`) |
| C78, C79 | `Model/Server`, `Model/Sshd` | from C34 and C37; C79 is refuted with a run for every number of attempts (`Props/Rfc`) |
| C80 | `Model/Client`, `Model/Cipher` | C60 and C22 for the bytes, C44 for the messages (`Props/EndToEnd`) |
| C81 | `Model/Client`, `Model/Cipher` | C47 for the packets, C45 for what is given to processes; an induction over the log shows that the process stays the one that gets the data of its channel |
| C82-C89 | `Model/Client` | the cause of each message (C41) lists what a session can send at all; the rest from C40-C44, C49 and C50. C87 is refuted with a session for every number of channels (`Props/RfcConn`) |
| C90-C94 | `Model/SshdMain`, `Model/Sshd`, `Model/Server` | `main` is evaluated; the rest from the theorems on the whole server (C51, C65), on its handlers (C58) and on panics of the authentication (C38). That a panic of the authentication stops the server is proved along the steps of the client (`Props/SshdMain`) |
| C95 | `Model/Client` | one direction is the invariant of C40-C50 (`session_whole`), the other runs each block of a trace (`Lemmas/ConnExec`, `Lemmas/ConnExact`); that a packet has only one effect links them |
| C96 | `Model/Client`, `Model/Transport` | C95 along the steps of a command, with C60 and C22 for what the client decrypts (`Props/Command`) |
| C97 | `Model/Server`, `Model/Transport` | one direction is C37's `Spec.Session` with the stream it was read from, the other runs each round; every stream is a list of packets (`Spec.Arrive`, any amount of padding) and a rest that does not start with one |
| C98 | `Model/Transport`, `Model/Cipher`, `Model/Packet` | the case distinction of `In::recv` (`In.recv_cases`), with the decrypted length as the key to each case |
| C99 | `Model/Host`, `Model/Identifier`, `Model/PacketIo` | the outcomes of the handshake (`Host.handshake_outcome`), each with its exact cause; the specification `Spec.Shakes` reads the stream packet by packet, and C17_errors and C21_errors make each step functional |
| C100 | `Model/Server`, all of the library | C99, C97 and C95 composed through the steps of a client alone (C51, C68); the keys of the session are pinned by `Spec.Agreed` |
| C101 | `Model/Server`, all of the library | each function, run on a connection with a limit, compared to the same without (`Truncates`, `Lemmas/WriteCut`); composed for all of them |
| C102 | `Model/Message`, `KexMsg`, `UserAuth`, `Channel`: every `parse` | `Spec/ParseError`: a message is a list of fields; too short means that some continuation is these fields; no reader of the model is used |
| C103 | `Model/Host`, `Server`, `Client`, `Cipher`: all that is written | `Spec.Spoke` and `Spec.OnWire` (in `Props/Wire`): the bytes of the handshake and of each packet as a function of what the client sent, the random numbers and the payloads; uniqueness is proved |
| C104 | `Model/SshdMain`, `Sshd`, `Server`, `Host` composed | `Spec.SshdClient` (in `Props/SshdStop`): what comes of each stream of bytes; uses `Spec.Shakes`, `Spec.Agreed` (C99) for the handshake and `Spec.Arrive`, `Spec.Malformed`, `Spec.Fatal`, `Spec.Probe` for packets, none of the handlers |
| C105 | `Model/Sshd`, `Client` | `Spec.SshdProgram`, `Spec.SshdStop` (in `Props/SshdSession`), with `Spec.Words` (C58); `Spec.Trace` (C95) for the events before |
| C106 | `Model/Scp` (`start`, `receive`, `send`, `readHeader`, `copy`, `fileName`) | `Spec.ScpRun` and the relations it is made of, `Spec.BadHeader`, `Spec.Copied`, `Spec.FileName` ... (in `Props/ScpExact`); `Spec.HeaderLine`, `Spec.Line` (C55), `Spec.LastMode` (C63) |
| C107 | `Model/Scp` (`exitStatus`) | none; `Spec.ScpPanics` for what is not 0. False: every error has status 0 (`C107_errors`) |
| C108 | `Model/Client`, `Server` | `Spec.Turn`, `Spec.dialogLog`, `Spec.dialogReplies`, `Spec.Onward` (in `Props/Dialog`); `Spec.Entered`, `Spec.OnWire` (C100, C103) |
| C109 | `Model/Scp`, `Model/Sshd`, `Model/Server` | `Spec.Joint`: how a session and the program it has started run together, `Spec.copyTurns` (in `Props/Copy`); `Spec.scpHeader`, `Spec.scan` (C54), `Spec.Words` (C58) |
| C110 | `Model/Host`, `Model/Auth`, `Model/Server` | lengths only; the bytes before and after the handshake are those of `Spec.Written` and `Spec.Taken` (C71) |
| C111 | `Model/Host`, `Model/Auth`, `Model/Server` | `Spec.Undecided` (in `Props/Waiting`), from `Spec.Shakes`, `Spec.Agreed` (C99), `Spec.Rounds` and `Spec.Arrive` (C97) |
| C112 | `Model/Host`, `Model/Auth`, `Model/Server` | `Spec.Exchanged`, `Spec.Derived` (in `Props/Replay`), `Spec.Transcript`, `Spec.TranscriptBytes` (C28), `Spec.signData` (C35) |
| C113 | `Model/Host`, `Model/Auth`, `Model/Server`, `Model/Sshd` | `Spec.Told`, `Spec.HasSigned` (in `Props/Mutual`), `Spec.Exchanged`, `Spec.Derived` (C112), `Spec.ValidSignature` (C58) |
| C114 | `Model/Server` | `Spec.Somewhere` (in `Props/Everywhere`), `Spec.Undecided` (C111), `Spec.Open`, `Spec.Closed` (C100) |
| C115 | `Model/Client` (`readCut`), `Model/Server` | `Spec.packets`, `Spec.InPlace` (in `Props/Deaf`), `Spec.passing`, `Spec.PacketOf` |
| C116 | `Model/Client` (`send`), `Model/Server`, `Model/Cipher` | `Spec.parts`, `Spec.LeastPadded`, `Spec.Complete`, `Spec.Genuine` (in `Props/CutWrite`) |
| C117 | `Model/Scp` (`send`), `Model/Sshd`, `Model/Server` | `Spec.Takes` (in `Props/Fetch`); `Spec.Joint` (C109), `Spec.FileName` (C106). False: the size in the header is always 42 and no byte 0 follows (`C117_never`) |
| C118 | `Model/Scp` (`pathLoop`, `pathFile`), `Model/Sshd`, `Model/Server` | `Spec.Upload`, `Spec.uploadBytes`, `Spec.uploadPackets`, `Spec.uploadTurns` (in `Props/CopyMany`); `Spec.Joint` (C109), `Spec.wires`, `Spec.Announces` (C54) |
| C58 | `Model/Sshd` | stated of the handlers, and through C34/C35/C43 of every session that uses them |

## Where the code does not do what the property says

For these the full statement is refuted by a theorem with a concrete witness and what does hold is in a `_partial` theorem.

| id | why it is false |
|----|------|
| C01, C02 | no byte string parses to KEX_ECDH_REPLY: `Key::parse` tests the wrong variable (ecdh.rs:82) |
| C17 | an unencrypted packet whose length is within 4 of the buffer size passes the check (packet.rs:16) and panics |
| C20 | before the identification string, an empty line, a line `S`, `SS..`, `SS..SH` or one that ends in CR hides it; `SSSH-` is taken for it (`C20_exact` says exactly which lines are skipped) |
| C32 | a wrong guess (first_kex_packet_follows) and IGNORE messages during the key exchange make the server panic |
| C33 | the length window of C17; a packet that is not a valid KEX_ECDH_INIT with 32 bytes; an unparsable packet instead of NEWKEYS |
| C38 | disconnecting after the handshake; a first packet that is not the service request `ssh-userauth`; a message that is not USERAUTH; `todo!()` methods; more than 1024 bytes to be signed; a probe of a known key with an answer longer than the buffer |
| C42 | the future that waits for `spawn` is dropped when another process writes: no reply |
| C44 | the reply is interrupted, and the streams of the new process are dropped with it |
| C45 | `write` instead of `write_all`; dropped future |
| C46 | stderr data and the exit status are sent also after CLOSE |
| C47 | `receive` is dropped inside a packet: its first bytes are lost, the counters and the stream no longer agree |
| C48 | windows and maximum packet sizes are ignored |
| C50 | messages with `todo!()`; requests and data for unknown channels; data after EOF; unparsable packets |
| C51 | a panic caused by one client stops the server for all |
| C53 | a waiter that gives up after being woken, or a newcomer that takes the lock first |
| C55 | a size with a plus sign, a name cut at a space, any mode are accepted |
| C56 | the size sent is always 42, and no zero byte is sent after the contents |
| C57 | names are not checked: `../x` and `/x` leave the directory |
| C69 | the cookie is the constant `nomnommunchmunch` (host.rs:122); the session identifier still differs, through the server's ephemeral key (C66) |
| C72 | `Vec::pop` wakes the last waiter (sync.rs:29-34): the first can be passed by any number of others (`C72_starvation`) |
| C73 | the nonce is a 64-bit counter; the sequence number of RFC 4253 is 32 bits wide, so they differ from packet 2^32 on |
| C74 | the type is not looked at (server.rs:367, "TODO actually check"), and there is no code for CHANNEL_OPEN_FAILURE |
| C75 | on CLOSE the channel is only forgotten (server.rs:485); CLOSE is sent only when a standard output ends |
| C76 | a second shell or exec request starts a second process and replaces the input of the channel |
| C77 | without standard output and error output `NewIo` is not returned, and the future `wait` is dropped |
| C78 | nora_sshd ignores the service (main.rs:61, 75), and the library does not check it |
| C79 | the loop of `authenticate_new_client` does not count |
| C82 | there is no code that sends CHANNEL_WINDOW_ADJUST, and the window in the confirmation is the client's own number (server.rs:364-382); a client that keeps to its window cannot send more than that on a channel |
| C83 | the branch for the standard error output sends `Data` (server.rs:332-337), the message `ExtendedData` is never made |
| C84 | `Message::parse(..).unwrap()` and `todo!` for all other messages; GLOBAL_REQUEST (80), which OpenSSH sends to keep a connection alive, is not known |
| C85 | KEXINIT in a session runs into `todo!` |
| C86 | a message of the authentication in a session runs into `todo!` |
| C87 | the arena of channels grows up to 2^32 entries |
| C88 | a process keeps the client's number of its channel (server.rs:452, 462-467, 308-316) and goes on with it after CLOSE; when the client has closed the channel too and uses the number again, the output goes to the new channel |
| C89 | the maximal packet size of the client is ignored; a message has at most 256 bytes of data |
| C91 | `StdRng::seed_from_u64(0)` (main.rs:20): everyone has the host key |
| C92 | any ed25519 key whose signature is valid will do, for any user (main.rs:72-96) |
| C93 | `spawn` does not use the user: every process runs with the rights of the server (main.rs:98-149) |
| C94 | a password is `todo!()` (main.rs:81); and all of C38 |
| C117 | as C56: the header says 42 and no zero byte follows the content, so a client that fetches a file cannot take it |

C59 states a defect positively: an X25519 result of zero is not rejected.

### Findings in code that has no property of its own

* nora_sshd: a password attempt is `todo!()`: every client can stop the server before it has authenticated (C58_crash). The same for a
  user name that is not UTF-8 (with a valid signature), an exec request without words, a program that cannot be started (C58_panics, C58_session).
* nora_sshd: `accept().await.unwrap()`; a failing `accept` stops the server.
* nora_sshd: a process killed by a signal is reported with status 0 (C58_signal).
* nora_scp: `main` returns normally (status 0) when `start` fails (C107).

## What the log of wrong programs shows

`seeded/LOG.jsonl` has one line for each attempt, also for those that were not caught or were not valid programs.

* `declarations_failed`: the declarations whose own proof failed in the changed model.
* `theorems_failed`: the theorems of the manifest whose proof uses one of these. They can no longer be built, but that alone does
  not show that their statements are false of the changed program.
* `caught_by`: `claim theorem` if a theorem of the claim is itself among `declarations_failed`; `lemma of the claim` if only something
  that it uses is. The second is weak evidence: a lemma that says what a definition does breaks with every edit of the definition.
  The line for `Out.send` with an equivalent program shows this, 16 theorems "failed". Most lines are of this kind.
* A proof that fails is not a refutation either. Where `caught_by` is `refuted`, `False` was derived in the changed model from the
  statement of the claim, with a concrete input.
* Lines up to the introduction of `caught_by` were first logged only if the attempt was caught and reached its claim; the others were added later.

## Axioms of each theorem

(`#print axioms`, for the theorems in MANIFEST.json.)

* none: C30_kexInit, C93_refuted.
* `propext`: C08_form, C09_name, C09_signal, C09_table, C19_sent, C20_plain_example, C20_refuted, C20_refuted_s, C20_skipped_partial, C37_replies, C39_new, C39_put, C39_remove, C55_refuted, C58_none, C58_probe, C58_signal, C78_ignored, C90_identification, C91_constant, C91_key_partial.
* `propext`, `Quot.sound`: C03_no_panic_session, C06_empty, C06_unassigned, C101_handshake, C105_program, C105_spawn, C107_errors, C107_refuted, C10_no_panic, C11_leading_zeros, C12_asciiStr, C19_parse, C19_round_trip, C20_refuted_sssh, C21_too_long, C21_version, C29_distinct_inputs, C29_first_later, C29_length, C30_algorithms, C51_isolated_partial, C51_others_partial, C51_stopped, C51_stops, C51_survives_partial, C52_poll, C53_refuted, C53_refuted_cancel, C56_names, C58_shell, C58_words, C58_words_unique, C83_alike, C90_starts, C91_refuted, C93_same.
* `propext`, `Classical.choice`, `Quot.sound`: all others.
