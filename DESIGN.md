# Formal model of mysql-connector

Subject: the Rust sources in `/repo` (crate `mysql-connector` 0.0.3 with its
`macros` crate), read as text.  Nothing in `/repo` is built, run or changed.

## 1. Method

* Every Rust function that matters for a property is rewritten as a small total
  Lean function in `lean/Verif/Model/*.lean`; each definition cites the file and
  lines it mirrors.  `Result`/`Option` stay data.  A Rust panic (slice index out
  of range, `unwrap`, `unimplemented!`, `assert!`, arithmetic overflow in the
  debug profile) is the explicit outcome `Out.panic`, so "does not panic" is a
  provable statement and never hidden by a default value.  What a release build
  does is in `Model/Release.lean`; C102 carries the other claims over to it.
* What the *other side* does (a MySQL server reading our bytes, a MySQL lexer
  reading our SQL text, an RFC 8017 decoder, the owner of a private key) is
  written separately in `lean/Verif/Spec/*.lean`, from the protocol
  documentation and not from the Rust code.
* Theorems that are properties live in `lean/Verif/Props/*.lean`, helper lemmas
  in `lean/Verif/Proofs/*.lean`.  Next to every property theorem there are
  `example`s showing that its hypotheses are satisfiable by a non-trivial case.
* Where the Rust code does not have the property, the file contains a theorem
  refuting it on a concrete input (name contains `_violated`), and a theorem
  with suffix `_partial` proving the property outside the bad region.
* Mutation testing: the model is edited in a scratch copy the way a realistic
  bug would change the Rust code; `seeded/LOG.jsonl` records which theorems
  fail. Its field `property_modules_that_no_longer_build` is worked out from
  the imports (everything that depends on a failing module), not observed; in
  the entries before `R10` it may name modules that were added after the
  attempt.

* The model passes the unit tests of the repository: every assertion of every
  `#[test]` in `/repo` is a theorem about the model (`Props/UnitTests`).

## 2. Modelling conventions

| Rust | Lean |
|---|---|
| `u8 … u64`, `i8 … i64` | `UInt8 … UInt64`, `Int8 … Int64` |
| `usize` | `Nat` (64-bit target; lengths of in-memory data never reach 2^64; where a 32-bit target differs is in `Model/Narrow`, C105) |
| `f32`, `f64` | their bit patterns `UInt32`, `UInt64` (the connector only copies them; parsing decimal text to floats is a parameter) |
| `&[u8]`, `Vec<u8>` | `List UInt8` |
| `&str`, `String` | `List Char`, with an explicit UTF-8 encoder/decoder proved inverse to each other |
| `Result<T, E>` + panics | `Out E T = ok | err | panic` |
| `&mut ParseBuf` functions | `SM Bytes ProtocolError α = Bytes → Out × Bytes` (the buffer position after an error is kept; the code depends on it) |
| `&mut Connection` functions | `SM Conn Error α`; the connection holds the bytes still to arrive (`rx`, with explicit `Rx.fault` marks where a read fails or times out, end of list = closed), the bytes written (`tx`), the write faults to come, sequence id, pending flag, capabilities, … |
| `async` functions | sequential functions (one connection is used by one task, guaranteed by `&mut self`); every suspension point at which a timeout can fire is a possible `Rx.fault`/write fault. Beside it the same functions as programs that are polled (`Model/Async`, a second transcription: reads and writes that make progress in pieces, `Timeout` in its order of polls, suspended and dropped anywhere); that the two agree is a theorem (C90), as is that a dropped call leaves the state of one that fails there (C91) |
| SHA-1/SHA-256, RNG | parameters (any function of the right output size / any byte string) |
| concurrency in the pool | labelled transition system whose steps are the individual atomic operations |

A server that reacts to what it receives is covered by quantifying over every
`rx` tape: whatever the server's strategy is, the bytes it delivers form some tape. That this loses nothing is a
theorem (C88): what a program of library calls does before it needs a byte does not depend on that byte, so every
run in which the server answers what it has read is the run on the tape of its answers, and conversely.

## 3. Trusted base

* Lean 4.33.0's kernel; the only axioms allowed are `propext`, `Classical.choice`
  and `Quot.sound` (the axioms of every property
  theorem are listed in `AXIOMS.txt`).
* That the Lean model mirrors the Rust text (checked by reading; citations at each
  definition) and that the Spec files state the MySQL protocol / lexer / RFC 8017
  rules correctly.
* The rules of Rust about undefined behaviour as used in `Model/Raw` (a pointer made from a slice may be used for its
  bytes only; text must be UTF-8; `set_len` needs initialized values).
* Behaviour of dependencies as documented: `bytes`, `bitflags`, `btoi`, `chrono`,
  `crossbeam::ArrayQueue`, `tokio` read/write, `num` big integers, `base64`,
  `hex`.  Each is re-modelled where it matters.

## 4. Properties: what is modelled and how it is proved

| id | property | modelled code | proof |
|---|---|---|---|
| C01 | Length prefixes survive the wire | `put_lenenc_*`, `lenenc_*_len`, `checked_eat_lenenc_*`, `eat_lenenc_*` | case split on the three thresholds; little-endian round-trip lemma |
| C02 | Any outgoing payload is framed so that a conforming server reassembles it | `write_packet`, `write_struct` | Spec: `reassemble` of a MySQL packet stream; strong induction on the payload length; sequence numbers as `UInt8` additions |
| C03 | Any well-framed server payload is received exactly and the stream stays aligned | `read_chunk_to_buf`, `read_packet_to_buf`, `read_packet` | Spec: framing relation (list of full frames + short frame); induction on the frames |
| C04 | A frame with an unexpected sequence number is never delivered | same as C03 | inversion: if the read returns ok then the consumed bytes are a framing with the expected numbers |
| C05 | Statement parameters reach the server unchanged | `StmtExecuteRequest::{new,serialize}`, `Value::{serialize,column_type,is_unsigned}`, `NullBitmap` | Spec: server-side decoder of COM_STMT_EXECUTE; induction on the parameter list; Spec/ParamTypes: the announced types (C05_types) |
| C06 | Parameters too large for one packet reach the server unchanged | `send_long_data`, `StmtSendLongData`, `as_long_data`, `*_prepared_statement_unchecked` | Spec: server state machine accumulating long data per parameter; induction on chunks and parameters |
| C07 | The announced binary size of a value is its real size | `Value::bin_len` | case analysis; refuted for the zero DATE, `_partial` otherwise; C07_exact_partial: exactly for all values but one |
| C08 | NULL bitmaps are exact | `NullBitmap` | bit-level lemma on `set`/`is_null`; induction over operation sequences |
| C09 | Binary rows decode to the values the server encoded | `BinaryProtocol::read_result_set_row`, `deserialize_bin` | Spec: server row encoder; induction on columns |
| C10 | Text rows decode to the values the server printed | `TextProtocol::read_result_set_row`, `deserialize_text` | Spec: server text row encoder (decimal printer, date/time printer); induction; `btoi` re-modelled with overflow checks |
| C11 | A data row is never mistaken for the end of the result | terminator test of `ResultSet::next` and `cleanup` | size argument on length prefixes |
| C12 | Iterating a result set yields exactly the server's rows | `ResultSet::{read,next,collect,one,finish}`, `query`, `read_column_defs` | induction on the rows over the connection monad |
| C13 | An abandoned result set does not corrupt the next command | `cleanup`, `execute_command`, `write_command` | C12 invariant at an arbitrary abandonment point |
| C14 | Server errors are reported verbatim and leave the connection usable | `ErrPacket::deserialize`, `decode_response`, all callers | Spec: server ERR encoder; round trip + caller theorems |
| C15 | Success responses are reported verbatim | `OkPacket::read_ok`, `decode_response`, `read_response`, `execute_query` | Spec: server OK encoder; round trip |
| C16 | The end-of-result packet reports the server's status and warnings | `OkPacket::read_eof` | refuted; `_partial`: what the summary really contains; C16_exact_partial: when it is right |
| C17 | Parameter count mismatches are refused locally | `PreparedStatement::{query,execute}` | direct |
| C18 | Preparing a statement consumes exactly the server's answer | `prepare_statement`, `Stmt::deserialize` | induction on the number of definition packets |
| C19 | Every command is sent verbatim with a fresh sequence | `execute_command`, `disconnect`, `Command` | uses C02 |
| C20 | String literals cannot be broken out of | `StringEscape` | Spec: MySQL string-literal lexer; induction on the string; C20_exact_partial: what is read of every string |
| C21 | Quoted identifiers cannot be broken out of | `IdentifierEscape` | Spec: quoted identifier lexer; induction; whitespace case refuted |
| C22 | Unquoted identifiers contain only allowed characters | `UnquotedIdentifierEscape` | filter characterisation |
| C23 | Displayed values are SQL literals that denote the value | `Display for Value`, `format_date`, `format_time` | numeral and date printers; composition with the C10 reader; C23_{date,time,datetime}_exact_partial: which are read back |
| C24 | Hex text round-trips | `Hex` | induction on bytes; rejection lemma; C24_exact_partial: when it panics |
| C25 | Converting a Rust value to a database value and back is lossless | `conversion.rs` scalar conversions | case analysis over complete type tables, universally in the value; C25_exact, C25_option_exact: nothing else is accepted |
| C26 | Calendar conversions are lossless or rejected | chrono date/time conversions (validity rules of the proleptic Gregorian calendar re-modelled) | case analysis + arithmetic; C26_datetime_exact: what becomes of every datetime |
| C27 | Durations convert with sign and microseconds | Duration conversions (chrono `TimeDelta` re-modelled as seconds + nanoseconds) | integer division lemmas; sign loss refuted; C27_written_partial: what every duration is written as, C27_survives_partial: exactly which survive |
| C28 | The password is never sent in clear without permission | `connect` up to the end of authentication, `gen_data` | non-interference: the bytes written are a function of hashes/ciphertexts of the password, proved for every tape |
| C29 | A configured authentication plugin is never overridden by the server | same | invariant over the authentication run for every tape |
| C30 | Authentication always terminates after at most one switch | same | fuel-free structural bound: packets read/written are bounded by a constant |
| C31 | A correct password always passes the server's check | `scramble_native`, `scramble_sha256`, `xor` | Spec: server check with stored double hash; XOR involution for every hash function |
| C32 | connect() succeeds only if the server accepted the credentials | authentication run | inversion; fast path refuted, `_partial` for the other paths |
| C33 | RSA padding is decodable | `OaepPadding::pad`, `mgf1` | Spec: RFC 8017 EME-OAEP decoding; XOR involution, list lengths; C33_exact_partial: which messages are padded and which could be |
| C34 | RSA encryption yields a full-size block the key owner can decrypt | `encrypt_padded`, `num_octets` | big-endian integer round trip; refuted for bit length ≡ 1 mod 8, with every such key and for every message (C34_short_violated); C34_exact_partial |
| C35 | Public keys parse to the key that was encoded | `der::*`, `try_from_pem`, `try_from_pkcs1/8` | Spec: DER/PEM/base64 encoder; round trip for every size; converse (`C35_exact`): exactly the texts with that structure are accepted |
| C36 | The handshake is decoded exactly | `HandshakePacket::deserialize`, `parse_server_version`, `handle_handshake` | Spec: server handshake encoder; round trip |
| C37 | The login request is decoded by the server to what the caller configured | `HandshakeResponse` | Spec: server-side decoder driven by the flags; round trip; C37_exact_partial: when exactly |
| C38 | The pool never opens more connections than its limit | `AsyncPool` as transition system | inductive invariant over all interleavings |
| C39 | Returned connections are never lost | same | same invariant + queue lemma |
| C40 | A waiting request is woken when a connection is returned | same + scheduler wake-up set | refuted by an explicit infinite schedule; `_partial`: what does hold |
| C41 | A failed or cancelled connection attempt frees its slot | same | refuted: after N failures no run reaches a usable connection |
| C42 | Buffers from the shared buffer pool are always empty and bounded | `SyncPool` | invariant over all histories |
| C43 | Timeouts never lose or duplicate a result | `Timeout::poll` | induction on the poll schedule |
| C44 | Applying migrations runs each pending migration once, in order | `Migrator::up_to_version` … | induction on the migration list with an effect log |
| C45 | Reverting migrations undoes in reverse order | `down_to_version`, `one_down` | same |
| C46 | Moving to a version reaches exactly that version | `to_version` | composition of C44/C45 |
| C47 | Migration bookkeeping survives crashes up to one step | effect log prefixes | prefix closure of the run's effect list |
| C48 | Version order is the lexicographic total order and list order is checked | `Version` ordering, `ordered` | lexicographic order lemma; list induction |
| C49 | Migration bookkeeping statements name the right migration | bookkeeping SQL `format!` | Spec lexer; refuted for names with quotes; C49_literal_partial: exactly which names are read as themselves |
| C50 | A model's generated query and its row mapping fit together | `build_query`, derive-generated `set_mapping`/`from_mapping_and_row_depth` | induction on the model tree |
| C51 | Generated insert and update statements match their values | `into_insert`, `into_update` | Spec: placeholder/column parser; induction |
| C52 | Only set fields are written, referenced rows first | `ActiveValue`, `ActiveReference`, derive-generated `values`, `insert`, `update` | induction on the active-model tree with an abstract database; failures characterised by an iff (`C52_insert_fails`, `C52_update_fails`) |
| C53 | Malformed server data never crashes the decoders | all packet decoders | panic-freedom by cases; counterexamples for the rest |
| C54 | Column metadata is decoded exactly | `ColumnDef::deserialize`, `Column`, `ColumnType`, `ColumnFlags` | Spec: server encoder; round trip; refuted at 251 bytes; C54_exact_partial: no longer name is ever decoded right |
| C55 | Capabilities are never claimed beyond what both sides support | `get_capabilities`, flags | bitwise lemmas |
| C56 | A response always answers the command that was sent | the whole connection | history induction over operations; refuted after a timeout |
| C57 | The server's packet limit is learnt when connecting | `read_settings` | C12 instance |
| C58 | Field types are classified by their path suffix | `TypeComplexity` | list-suffix characterisation |
| C59 | An error the server reports while sending rows reaches the caller | `ResultSet::next`, `cleanup` | refuted for every error; `_partial`: never taken for the end |
| C60 | Result sets of servers without the new end-of-result convention can be read | `ResultSet::{read,next}`, `read_eof` | refuted for every such result set; `_partial`: columns |
| C61 | A failed call leaves the connection usable | `execute_query`, `read_response` | refuted for every result set; `_partial`: corollary of C56 |
| C62 | The commands sent are exactly the documented ones and statements are released | all public calls, `StmtClose` | predicate on the written bytes closed under all operations; second half refuted |
| C63 | Logging in ends as the server decides, and the right password is accepted | `login` as a whole | spec: a server automaton (`Spec/Login.lean`); the client is followed phase by phase; uses C31, C34, C35, C36, C37 |
| C64 | A whole session behaves as its parts | `connect`, then all calls | composition of C63, C57 and C56 |
| C65 | Querying a model returns the stored rows with their references | `build_query`, `set_mapping`, `from_mapping_and_row`, `query`, `collect` | spec: relational evaluation of the parsed statement (`Spec/Relational.lean`) and following references; induction over the tree of models |
| C66 | A server with tables stores exactly the rows of an active model | `insert`, `update`, `into_values`, `prepare_statement`, `execute` | spec: a server that parses the bytes of the commands, keeps tables and answers (`Spec/SqlServer.lean`); induction over the tree and over the rows. The server stores parameters as they are (columns that can hold them) |
| C67 | A model that is inserted is found again by a query | `into_active_model`, `insert`, `build_query`, `query`, `collect` | C66 followed by C65; tables only grow, keys are unique |
| C68 | Migrating executes exactly the statements of the pending migrations, each followed by its record | `Migrator::{new, up_to_version, down_to_version, to_version, one_down}` on a connection | the migrator's code over any outside (`MigEnv`), instantiated with `execute_query`; induction over the pending migrations |
| C69 | Migrating a database applies and records exactly the missing migrations, in order | `Migrator::{new, up, up_to_version, down_to_version}` with a server | spec: a server that reads the statements about `migrations`, keeps its rows, does anything with other statements (`Spec/MigServer.lean`); the statements by C49's reader, the rows by C10/C12, the sequence by C68. Partial: names with quotes or backslashes, names of more than 255 characters, migrations that touch the table itself |
| C70 | The derive macros take a declaration for what it says, and the query fits the mapping | `derive_model_data`, `derive_from_query_result`, `derive_active_model`, `derive_into_query`, `derive_model`, `parse_attr`, `parse_fields` | spec: what a declaration says (`Spec/Declared.lean`: the first attribute, the last string of a key, the first struct of a path); programs as trees of declarations, then C50. Partial: raw identifiers, tuple indices |
| C71 | Rust values given as parameters come back from a server unchanged | `TryFrom`/`From` of `Value` in both directions, `Prepared::query`, `collect`, `query` | spec: which values the database can hold (`Spec/Typed.lean`); composition of C05/C06, C09/C10/C12 and C25–C27, the data of the server in between. Partial: durations between -1 s and 0; C71_duration_partial, C71_datetime_partial: exactly which come back |
| C72 | Rows of any query are read as models by the tables and names of their columns | `set_mapping`, `set_mapping_inner`, `from_columns`, `from_mapping_and_row` | spec: the last column of alias and name; routes do not depend on the column's name. Partial: columns of unknown tables |
| C73 | Exactly the well-formed packets of a server are accepted, and taken for what they say | `ErrPacket`, `OkPacket::read_ok`, `Stmt`, `ColumnDef`, `AuthSwitchRequest`, `HandshakePacket` decoders | spec: layouts (Spec/Accepted); decoders as relations between contents and consumed bytes (Proofs/Decodes) |
| C74 | Exactly which texts are accepted as values, and what they denote | `deserialize_text` with its time, date and datetime parts, `TextProtocol::read_result_set_row` | spec: numerals, clocks, days, cells (Spec/AcceptedText); exact for acceptance and for panics |
| C75 | Exactly which binary rows are accepted, and what they denote | `deserialize_bin` with its parts, `NullBitmap::{deserialize, is_null}`, `BinaryProtocol::read_result_set_row` | spec: bytes of a value in front of the rest, cells under a bitmap (Spec/AcceptedBin); exact for acceptance and for panics |
| C76 | What any stream of bytes from a server is taken for | `read_packet`, `execute_query`, `prepare_statement`, `query`, `ResultSet::{read, next, collect}`, `read_eof` | spec: the packets next on the stream and their forms (Spec/Streams); exact for success, server errors and panics (local files, too many columns, bad rows); on a connection without pending result; local errors are not told apart; session state information not specified |
| C77 | What happens in any state of a connection, whatever is left on the stream and whichever writes fail | `cleanup`, `execute_command`, `write_command`, `write_packet`, `PreparedStatement::{query, execute}`, `ResultSet::{one, finish}` | spec: Spec/Sending (what is passed over, which calls write); C76 without its two assumptions; local errors are not told apart |
| C78 | Which conversations log a client in, whatever the server does | `handle_handshake`, `do_handshake_response`, `continue_auth`, `perform_auth_switch`, the SHA-2 handler | spec: Spec/LoginStream (conversations as lists of packets received and sent); Proofs/Talk relates programs to conversations, outcome by outcome; exact for success, server errors and panics; bytes of the request and of the responses by C31, C33, C34, C37; errors the client finds itself are not told apart |
| C79 | Exactly what a server has to send to make a login panic | `try_from_pem`, `der::*`, `encrypt_padded`, `parse_server_version`, login | exact for key texts (`Spec.Cut`: proper beginning of a group), encryption (result and panic, block of RFC 8017 7.1.1), versions, greetings, and put together for the whole login with `Crypto.real`; hypotheses: digests of 20 bytes, seed of 20 bytes, digits count as alphanumeric and `+` does not |
| C80 | After an update a query finds the new values, and everything else as before | `UpdateModel::update`, `ActiveReference`, `buildQuery`, `RSet.collect` | `Spec.Becomes` (Spec/Changed) says what each field is to be; proved on the tables (`C80_tables`), complete up to generated keys (`C80_becomes`), and for the conversation with the server of C66 followed by the query of C65; hypothesis: no model refers to the updated table, referenced models are inserted whole |
| C81 | A model can be queried with a condition and looked up by its key | `buildQuery`, `prepareStatement`, `Prepared.query`, `query`, `RSet.one/collect`, `buildModel` | `Database.joined` and `parseLookup` (Spec/Lookup): the continued text is read as the query plus the condition (`C81_lookup_text`), the combined rows are the complete rows of the table (`C81_joined`), any selection of them is read right in both protocols (`C81_clause`, `C81_statement`), and the whole conversation of a lookup (`C81_lookup`); the continuation is the user's text, `lookupText` is not in the library |
| C82 | The text of an error says exactly what the server said | `Debug` of `Error`, `ErrPacket`, strings (Model/Debug) | a reader of Rust string literals and of the error's text (Spec/Debug) gets code, state and message back from it (`C82_error`), for every message and every notion of printable characters; from the packet on the stream: `C82_reported` |
| C83 | Printing values of the connector does not reveal the password | `Debug` of `ConnectionOptions`, `ConnectionData`, `Connection` | refuted: the password can be read from the text (`C83_options_violated`, `C83_connection_violated`, `C83_pretty_violated`); `C83_errors_partial` for errors and connection data, from C28's simulation |
| C84 | Moving a database to a version leaves exactly the migrations up to it | `Migrator::{to_version, one_down}` with a server | C69's server; the sequence of statements by C68, the two halves composed (`Spec/MigMove.lean`), the rows by C69_rows. Partial as C69 |
| C85 | The users of a pool of connections do not see each other's results | `AsyncPool<Connection>`: `AsyncPoolContent for Connection`, `PoolItem::{deref_mut, drop}` with the dialog of C56 | every history of the pool interleaved with uses; each use compared with the same on a connection of its own. Partial: without failures of the stream |
| C86 | The server reads the commands that were issued, whatever the stream does | `write_packet`, `execute_query` with failing writes | the server's reading of the stream (`Spec/Commands.lean`) after any list of calls; a part of a packet is no packet. Partial: callers who stop at the first I/O error |
| C87 | Which conversations make a connection | `connect`, `read_settings` with all of C76-C78 | spec: Spec/Connecting; exact for success, server errors and panics; on a fresh connection (no pending result); local errors are not told apart |
| C88 | A client and a server never wait for each other, and it does not matter when answers arrive | all operations on a connection, as programs (`Spec.Client`), against servers that see what has been written | spec: Spec/Interactive; causality, any delivery in portions, whole packets, complete commands, a dialog of statements. Partial: a stream that passes on what is written |
| C89 | Hex values survive being stored in a data format | `Serialize`/`Deserialize` of `Hex` (feature `serde`) | spec: Spec/Serde, formats by what they do with structs of one field and with texts; exact acceptance. Refuted for all formats but one kind; `_partial` for that kind; C89_refuses: how everything else is refused |
| C90 | A call polled piece by piece does what it does at once | all operations on a connection as futures: `read_exact`, `write_all` under `Timeout`, polled with any answers | spec: Spec/Async; soundness, realizability and determinism of the polled programs against the functions on tapes |
| C91 | A connection can be used after a call was dropped | the same, suspended anywhere | a dropped call as a failed one; `_partial` between rows and before the first byte; refuted while an answer is due, inside a command, inside a row |
| C92 | Calls end in time | the same, with the time between polls | time of a call by its polls; `_partial`: each operation within `timeout`; a server that sends nothing; refuted for calls as wholes and for slow frames |
| C93 | Builds with fewer features log in with fewer servers and do nothing else differently | the functions under `#[cfg(feature = "caching-sha2-password")]` and `"time"` | exact conversations for success, server errors and panics without the plugin; equality with the default build otherwise; refuted: the plugin named in a greeting is not ignored |
| C94 | Calling a stored procedure leaves the connection in step | `PreparedStatement::query`/`execute`, `ResultSet::collect`, `execute_query` | Spec/Procedure: the answer of a procedure; exact results of all statements after it; false for procedures with result sets (finding 18) |
| C95 | After the login nothing depends on who logged in, nor on what the handshake told but two bits | all calls of C77, models, start of a migrator, `disconnect` | non-interference: pairs of runs (Proofs/Unseen) |
| C96 | Commands fit the packet limit of the server | `execute_command`, `send_long_data`, `StmtExecuteRequest` | false (finding 20); for statements with parameters the bound of 16 MiB |
| C97 | Several models inserted one after the other are all found, each once | `insert` repeated, then `build_query`, `query`, `collect` | C66 and C65 with Spec/Several; one row per model is singled out by its id |
| C98 | A whole program: log in, create a table, insert models, query them, disconnect | `connect`, `execute_query`, `insert`, `query`, `collect`, `disconnect`; `main` of examples/hello_world.rs | C63, C57, C15, C97 in sequence; `unwrap` makes errors panics |
| C99 | A migration that fills a column sets it for exactly the users with one address | `up`, `down` of examples/migrations/migrations/v0_1_1.rs: three connections, a loop over rows with prepared statements inside | Spec/Fill: one server with several connections; every interleaving of calls on them as one conversation |
| C100 | Migrations that use a pool take effect and are recorded, whichever connections they get | `Migrator` with arbitrary programs as migrations (`Model/MigPool`), `simple_migration!`, examples/migrations | Spec/MigPool: one server with a table of records and several connections; what a migration does is a function on the database (`Step`); any pool that does not hand out what somebody has; the pool of the code in `fifoPick`, tied to `Model/Pool`; connections held at a time by `heldNow` (C100_limit, C100_places) |
| C101 | Several programs may migrate one database at the same time | `Migrator::new` and `up` of any number of programs, each on its own connection, statement by statement | Spec/MigTogether: a schedule says whose statement is executed next; violated (finding 54), what holds for every schedule is proved; that the programs do on their connections what the schedule says is C101_run |
| C102 | Release builds do what builds with overflow checks do | greeting, text times, `Display`, `Migrator::new` with wrapping arithmetic (`Model/Release`, `Model/AsyncRelease`) and everything that calls them, at once and poll by poll | a relation 'same outcome and state unless the checks panic', closed under the constructs of the model; what a release build does where the checks panic is characterized exactly |
| C103 | Packet code that no caller reaches yet follows the protocol | connection attributes in the login request, `AuthSwitchRequest::serialize`, `OkPacket::read_old_eof`, halves of integers, readers without checks (`Model/Dormant`) | a server's reading of a login request with all parts (Spec/Attrs); `Unchecked`: same outcome, panic for 'too short', closed under sequencing; violated for the switch request and the old end-of-rows packet |
| C104 | The blocks that the compiler does not check are sound | the readers of `ParseBuf` and `Deserialize` for numbers and arrays, `ErrorPacket::deserialize`, `state_str`, `SyncPoolContent::reset` for vectors, with memory and an outcome 'undefined' (`Model/Raw`) | `Refines`: always defined and the same as the reader on lists of bytes, closed under sequencing; `Reports`: errors of the server have been decoded from a packet, for every call |
| C105 | A program on a target with addresses of 32 bits does what it does on one with 64 | `as usize` of lengths and column counts (parse_buf.rs 181, result_set.rs 49), `eat_len` with 4 bytes, `mgf1` without its check, and all callers up to the calls on a connection (`Model/Narrow`), connecting (`Model/NarrowAuth`), models and migrations (`Model/NarrowModels`) | `Alike`: a run that succeeds with 64 bits succeeds with 32, with related results and the same connection; `Exact`: on streams without such lengths the same outcome, whatever it is; both closed under sequencing |
| C106 | Several programs may move one database to versions at the same time | `Migrator::new` with `up`, `up_to_version`, `down_to_version`, `to_version`, `one_down` of any number of programs, statement by statement (the answer of `one_down` is left out) | Spec/MigMany: as in C101, programs have goals; a log of reads, effects and records; violated (finding 60), what holds for every schedule is proved; C106_run ties the programs of the schedule to the code on connections |
| C107 | Programs that store models in one database at the same time do not disturb each other | derived `insert` and `update` of any number of programs, statement by statement | Spec/StoreMany: programs as scripts of statements with the ids reported as the only input, a schedule, a history of rows and changes, one session (prepared statements, long data) per connection; the server executes a statement as a whole; C107_run ties scripts to the code on connections, C107_history says what every program did in every schedule, C107_kept/C107_found what is in the table and found, C107_columns/C107_disjoint what updates leave |
| C108 | A query sees whole models while others are being inserted | derived `insert` of any number of programs, statement by statement, and `query` of a model in between | Spec/Moments: the models given with a model, inserts finished so far; the system of C107; the query is answered from the tables as they are between two statements (C65); C108_whole: no row without those it refers to, C108_query: what is returned, C108_later: returned again later |
| C109 | References lead to rows while programs insert and update | derived `insert` and `update` of any number of programs, statement by statement, and `query` of a model in between | Spec/Links: a column that holds keys of another table, what programs must not do (FitsJob), the links of a model; the system of C107; C109_links: the link is kept and what leads somewhere still does, C109_whole and C109_query: every row can be read as a whole, C109_insert: whole models keep to it; example of an update of a key that breaks it |
| C110 | Tasks that share a pool store models at the same time | derived `insert` and `update` of any number of tasks on connections taken from a pool and given back | Spec/StorePool: tasks, who holds which connection, what was served where; C110_run: on every free connection the calls made one after the other get exactly these results and leave it at rest, C110_served: tasks get what their calls got, C110_tasks: the same as with a connection each (C107), hence C110_history, C110_kept, C110_found; C110_goes and C110_bound: no deadlock; C110_alone |
| C111 | What is printed of a failure has exactly one reading, on one line or on several | `Debug` of `Error`, `ErrPacket`, `ProtocolError`, `ParseError`, `SerializeError`, `Value`, options, as trees; `{:?}` and `{:#?}` of trees (Model/DebugTree) | Spec/DebugTree: tokens and a reader of Rust values; C111_tree: both forms are read as the tree that was printed (blanks at the beginnings of lines never fall into a token), C111_distinct; C111_value, C111_refusal, C111_convert, C111_calendar, C111_server, C111_reported, C111_unexpected, C111_error; C111_compact: on one line the texts are those of C82 and C83 |
| C112 | Tasks that take the connections for storing models from the library's pool | the pool of C38–C41 step by step together with the tasks of C110 | Spec/PoolTasks: tasks with their requests; C112_store: the tasks do what C110's tasks with connections below N do, C112_taken: a connection in use has one live handle, C112_run: on idle connections the calls get these results, C112_served, C112_history; C112_finish_partial: an end is possible from everywhere, C112_hang_violated: it is not reached by an executor that polls only what was woken; Spec/StoreFair: infinite executions in which every task moves again and again, in all of them every task ends (C112_fair_partial); C112_kept and C112_found: what is in the tables and what a query finds; Spec/StoreWoken: an executor that polls only what was woken, with which all tasks end if there are places for all of them (C112_enough_partial, C112_awake_partial, by C115's invariant) |
| C113 | How many places a pool needs for tasks that hold several connections at a time | the pool of C38–C41 step by step with tasks that hold several connections | Spec/PoolHold: programs of gets and drops, `peak` = the most they hold at a time; C113_no_deadlock with more than the sum of `peak - 1` places, C113_deadlock without, C113_migrators for the program of examples/migrations (by C100_limit); Spec/PoolFair: infinite executions in which every task moves again and again; C113_fair: in all of them every task ends (assumes that loads of the counter are not stale for ever; in the other theorems they may be) |
| C114 | A request that is polled again and again gets its turn | the pool of C38–C41 step by step | Spec/PoolTurn: infinite executions in which everyone gives back; violated (finding 61); C114_poll_partial and C114_full_partial: when a poll succeeds; C114_finite_partial: finitely many tasks; C114_every_violated: for every N an execution in which one request starves while N connections go round |
| C115 | In a pool that is large enough nobody waits | the pool of C38–C41 step by step | Spec/PoolEnough: `outstanding`, `FitsAll`, `EnoughRun`; the counter plus the requests between pop and exchange stay within N, so no load finds the pool full; an exchange that fails means the counter has grown; C115_sharp: not with one request more |

### Files

* `Model/Types, Utf8, Wire, Value, Text, Display, Convert`: values and their wire,
  text and SQL forms. `Model/Io, Packets, Stmt, Query`: packets, commands, result
  sets, prepared statements. `Model/Debug`: what `{:?}` prints. `Model/Serde`: `Hex` with serde. `Model/Crypt, Auth`: keys, RSA/OAEP, handshake,
  authentication, `connect`. `Model/Features`: the same in builds with fewer features. `Model/Dormant`: packet code without callers. `Model/Raw`: pointers into memory. `Model/Narrow`: targets with addresses of 32 bits. `Model/Pool, PoolConn, Buffer`: `AsyncPool`, `SyncPool`,
  `Timeout`. `Model/Async`: the operations on a connection as programs that are polled. `Model/Migrator` (the migrator over any outside: by script), `Model/MigratorWire`
  (the same code on a connection, and `Migrator::new`); `Model/FieldType, Derive`: the derive macros, from
  the syntax tree; `Model/Orm, Active`: the code they generate. `Model/Api, Dialog`: public calls as data, so that theorems can quantify
  over histories.
* `Spec/*`: the other side, see section 1. What a spec file takes from the model is
  limited to data types (`Str`, `Bytes`, `Conn` for tapes) and the parameters.
  `Spec/MigSql, MigServer, MigMove` are the migration server, `Spec/Relational, Typed, Changed, Lookup, Several, Fill` tables of models,
  `Spec/Debug` readers of printed text.
  `Spec/Accepted, AcceptedText, AcceptedBin, Streams` say what the client accepts beyond what servers send.
* `Proofs/*`: lemmas only; nothing there is part of a statement of a property except
  a few predicates that a reader of the statement needs (`DescsAs`: a list of column
  descriptions and the columns they denote; `RowsAs`: row packets and the rows they
  decode to; `Left`, `Conn.feed`, `Conn.spot`: connections with given packets next on
  the stream; `Sending`: what is passed over before a command and how many calls write it; `LoginStream`: conversations of a login; `Connecting`: the question that follows it; `RowPacket`, `BadPacket` (C76): packets taken for rows, and packets at which reading panics).

### Parameters of the model

* `Crypto`: SHA-1, SHA-256, the random bytes of OAEP.  Theorems hold for every choice,
  with the output size as a hypothesis where needed.
* `FloatParse`, `FloatFmt`: decimal text to and from floating point.
* which characters `char::is_alphanumeric` accepts (server version parsing).
* which characters the standard library prints as `\u{…}` in the `Debug` text of a string.
* `RowReader.build`: the caller's `FromQueryResult` implementation.

### Assumptions about concurrency

* crossbeam's `ArrayQueue` and `SegQueue` are linearizable; a `Relaxed` load of a counter
  that only grows may return any earlier value; read-modify-write acts on the latest.
* A `Connection` is used by one task at a time (`&mut self`).

## 5. Deliberately not modelled

* TCP itself, DNS, `set_nodelay`; memory allocation failure; allocator behaviour. The panic of
  `Vec::with_capacity(n)` for a number of columns that exceeds `isize::MAX` bytes is modelled (`readColumns`; a
  `Column` of 104 bytes, 64-bit machine); a smaller number sent by the server can still exhaust memory, which is not.
* Streams that buffer: the model's stream delivers every written byte. `write_packet` never calls `flush`, and
  the trait `Stream` is open to any `AsyncWrite`; what that means is C88_buffered_violated, in which the buffer
  stands between the model's stream and the server.
* The cryptographic strength of SHA-1/SHA-256/RSA; only functional correctness
  for arbitrary hash functions and random strings.
* `Debug` output, except of errors and values in both forms (C82, C111), of options in both forms and of connections
  on one line (C83).
* `std::error::Error`/`Display` of error types; of `examples/` hello_world.rs (C98) and migrations (C99, C100) are modelled.
* Rust's syntax (`syn`) and the spans of the macros' messages: the model starts from the syntax tree of a
  struct; which texts are identifiers is a parameter (`IdentRules`).  That the type of a reference
  field leads rustc to the declaration meant is part of the trees in `Model/Derive`.

## 6. Divergences found in the Rust code

Each entry: what a user would expect, what the code does, and the theorem that shows it
(`Verif.` left out).  Where an entry has no theorem it was seen while reading and is
recorded here only.

### Values

1. `Value::bin_len` gives 1 for DATE 0000-00-00, five bytes are written (C07_zero_date_violated).
   The effect is confined to the choice between one packet and long data (C07_error_bound).
2. The sign of a zero TIME is not kept (C05's exception, part of `Spec.meaning`).
3. Text times with more than six fraction digits panic (C10_long_fraction_violated); columns with
   type codes 6, 14, 17-20, 243, 251 panic in text rows, 14, 17-20, 243 in binary rows
   (C10_long_blob_violated, C53_text_types_violated, C53_binary_types_violated).
4. Empty byte strings display as `0x` (C23_empty_bytes_violated); years above 9999, minutes above
   99 and very large times do not display as literals (C23_wide_violated).
5. `StringEscape` writes `\z` for U+001A where MySQL reads `\Z` (C20_ctrl_z_violated).
6. `IdentifierEscape` keeps one leading space of an all-whitespace name (C21_only_whitespace).
7. `Hex::try_from_hex` panics for fewer than two bytes (C24_short_violated).
8. Negative numbers convert to `false` (C25_negative_bool_violated).
9. Durations: the sign is lost if whole seconds are zero; days are cut to 32 bits
   (C27_sign_violated, C27_days_violated).
10. The prefixes 0xFB and 0xFF of a length-encoded integer read as 0 (C01_markers_read_as_zero).

### Results

11. Status and warnings of the end-of-result packet are read one byte too early (C16_violated).
12. Column names of 251 bytes and more are not decodable (C54_long_name_violated).
13. An empty packet in place of a row, a request for a local file: panic (C53_empty_row_violated,
    C53_empty_leftover_violated, C53_local_infile_violated).
14. An error in the middle of a result is decoded as a row (C59_row_from_error_violated) or as a
    malformed packet, never reported (C59_reported_violated), and the connection is stuck
    afterwards (C59_stuck_violated).
15. Without CLIENT_DEPRECATE_EOF no result set can be read (C60_rows_violated,
    C60_next_command_violated).
16. `execute_query`/`execute` of something that answers with rows leaves the rows on the stream: the
    next commands fail although executed, then get each other's answers (C61_desync_violated,
    C61_misattributed_violated).
17. After a timeout the late answer is taken for the answer to the next command
    (C56_answers_violated).
18. `PS_MULTI_RESULTS` is negotiated, but further result sets and the OK packet of a procedure are not read; they run
    into 16. After a call of a procedure with a result set, as many statements fail as packets are left, and the ones
    after that are told answers of others (C94_call_violated); if the OK packet has the number 1, as after 253 rows of
    one column, that happens without any error (C94_told_violated).
19. Statements are never closed on the server (C62_never_closed_violated).
20. `max_allowed_packet` is learnt (C57) but not used for anything (C96_ignored_violated): commands of any length are sent
    (C96_text_violated, C96_params_violated). The pieces of long parameters are one byte too long for a frame:
    `MAX_PAYLOAD_LEN - 6` leaves 6 bytes for a header of 7, so that each takes two frames, and 16 MiB in all.

### Connecting

21. After "fast authentication succeeded" the server's verdict is not read: `connect` succeeds
    although the server refuses (C32_fast_path_violated).
22. A server that refuses the connection before the greeting makes `connect` panic
    (C53_refused_violated); so do greetings with a challenge of 128 to 135 bytes and version strings
    with non-ASCII letters (C36_data_len_violated, C36_version_violated).
23. MariaDB's replication prefix is taken for the version (C36_mariadb_violated).
24. User names with a zero byte, passwords over 255 bytes: the server reads something else
    (C37_nul_violated, C37_long_violated).
25. The login packet announces plugin authentication and a database also to a server that offers
    neither (C55_claim_violated).
26. RSA: two bytes less of message than allowed (C33_limit_violated); one octet short if the bit
    length of the modulus is 1 mod 8 (C34_bits_one_violated); malformed keys panic
    (C35_overlap_violated, C35_short_violated, C53_key_violated); lengths need not be in
    shortest form, the algorithm identifier and bytes after the key are not looked at (C35_exact).

### Pools

27. Waiting requests are never woken: the waker queue is written but not read
    (C40_never_woken_violated, C40_asleep_violated).
28. Failed or cancelled creations use up slots for good (C41_exhausted_violated,
    C41_history_violated).

### Migrations and models

29. The second of two migrations of the same name in one version is skipped (C44_same_name).
30. A migrator used again after a failed bookkeeping insert skips the unrecorded migration
    (C47_reuse_violated).
31. Names with quotes or backslashes break the bookkeeping statements (C49_quote_violated,
    C49_backslash_violated).
32. A reference field named like the model's own table mixes up columns (C50_own_table,
    C50_own_table_nested).
33. Names with a backquote break generated statements (example beside C51_insert).
34. `path_matches` compares the common suffix only, so a type `my::Option` counts as `Option`
    (examples beside C58_classified).
35. The table's unique index compares names by the collation, the migrator exactly: the second of two
    migrations of one version whose names differ in case only takes effect, its record is refused, and
    so on with every further run (C69_collation_violated).
36. A name of more than 255 characters is refused as a record after the migration has taken effect, or,
    without strict mode, recorded cut; then no migrator can be started any more (C69_long_violated).
37. A flattened field with a raw identifier (`r#in`) is asked for as `r#in_x` and looked for as `in_x`, so
    that no row can be read; a plain one is a column `r#type` (C70_raw_violated,
    C70_raw_column_violated).  It cannot be the key: `primary = "type"` is not found, with
    `primary = "r#type"` the macro panics (C70_raw_key_violated).
38. A second `#[mysql_connector]` attribute is ignored without a message, as are unknown keys;
    `auto_increment = "True"` means no (C70_silent_violated).
39. `ty = T { 0: x }` makes the macros panic at an `unreachable!` (C70_index_violated).
40. Only `ModelData` declares the attribute `mysql_connector`, although the other macros demand it; they
    cannot be used without it.
41. A column of a table alias that the model knows nothing of is taken for a column of the model (or of the
    last model that the alias leads to), and the last one wins: in the result of a hand-written join the field
    `id` gets the other table's `id` (C72_foreign_violated, C72_foreign_nested_violated).
42. Texts no server prints are taken for values (C74_example, C74_value): a single byte of any kind after the
    seconds, any byte between date and time, minutes and seconds up to 99; of a DATETIME with 24 hours or more the
    whole days are dropped.
43. A binary date or time that announces a length other than the documented ones is accepted, but only 0, 4, 7 or 11
    (0, 8 or 12) bytes of it are consumed, so that the rest is read as the next values (C75_example_shift).
44. `{:?}` of the options prints the password, and with it that of every connection and of every item of a
    pool of connections (C83_options_violated, C83_connection_violated).
45. The late answer of 17 shifts all that follow, with no error; a connection in that state goes back into its pool,
    and the next holder is shown the results of the one before (C85_late_violated, C85_pool_violated).
46. After a write that failed half-way (a timeout) the connection can be used further; the server takes the next command
    for the rest of the torn one. A text that is properly quoted in the second command becomes SQL of the
    first (C86_torn_violated, C86_example). With a pool the two need not come from the same user.
47. Nine bytes from a server that announce more columns than there can be room for make every query panic
    (`Vec::with_capacity`; C53_columns_violated, and C76_head_panic, C77_query_panic for exactly which bytes).
48. Nothing is ever flushed: behind a `Stream` that buffers what is written the command of a call stays in the buffer
    and the call waits for an answer that cannot come (C88_buffered_violated).
49. `Hex` is serialized as a struct with one field but deserialized as a `&str` lent from the input: a value stored in a
    format that keeps the name of such structs, or read through a reader, from a tree of values or from text with
    escapes, cannot be read back (C89_violated).
50. A call that is dropped (`select!`, a limit of time around it, a request that is given up) leaves the connection as a
    failure at that place would, and nothing marks it as unusable: the next statement is told the answer of the
    dropped one (C91_late_violated), the server reads a mixture of two commands (C91_torn_violated), and the rest of a
    row that was being read is taken for packets, so that a value stored in a table can say what the next statement
    is told (C91_forged_violated).
51. `timeout` limits single reads and writes: a call that discards what is left of an abandoned result goes on for as
    long as the server sends rows (C92_endless_violated). On the other hand a frame of up to 16 MiB must arrive within
    it as a whole: a long row fails although it keeps arriving (C92_steady_violated).
52. Opening the stream (`Stream::connect`) is not under `timeout` at all (init.rs 15).
53. `auth_plugin` is documented as "Ignore auth plugin specified in handshake", but a greeting that names a plugin the
    build does not know makes the client panic before that (C93_ignored_violated). Without `caching-sha2-password` this
    is every server set up as MySQL 8 is, also for accounts with another plugin. Without `time` the default options
    panic (`sleep` is `None`, C93_no_sleep).
54. Nothing keeps two programs from migrating at the same time (a deployment with several instances): both read the table
    before either records, and a migration takes effect twice; the second instance learns it from the refusal of the
    record, after the fact, and fails. On an empty database both find no table, and the second fails with `create table`.
    (C101_twice_violated, C101_create_violated; the table itself stays right, and one of them gets through: C101_someone.)
55. In a release build a TIME or DATETIME text with more than six digits after the point is not refused: all of the
    fraction is dropped (C102_fraction, C102_fraction_lost); a TIME of 2^32 hours or more, which a binary row can bring,
    is written as another time (C102_display_wraps); lists of migrations out of order are accepted (C102_migrator_order).
    With overflow checks all of these panic.
56. `AuthSwitchRequest::serialize` writes the header 0x00 of an OK packet instead of the 0xFE of the protocol; the
    connector reading what it wrote takes itself for logged in.
    `deserialize` strips one zero byte at the end, which `serialize` does not add (C103_switch_header_violated,
    C103_switch_accepted_violated, C103_switch). Nothing in the crate calls it.
57. `OkPacket::read_old_eof` does not skip the marker 0xFE: the marker becomes the low byte of the warnings and
    everything after it is off by one byte (C103_old_eof_violated). Nothing in the crate calls it.
58. `reset` of a vector in a `SyncPool` sets its length to 0 without dropping what is in it: in a pool of vectors of values
    that own something (the type is public) all of them leak (C104_leak_violated). The crate's own pool holds bytes.
59. On targets with addresses of 32 bits `len as usize` drops the upper half of lengths and of the number of columns: a
    malformed row, OK packet or result set header that is refused with 64 bits is accepted with other contents
    (C105_rows_violated, C105_ok_violated, C105_results_violated, C105_columns_violated), and a limit of 2^32 becomes 0
    (C105_limit). Lengths in public keys may have four bytes
    instead of eight there (C105_key_violated; a server that sends such a key is not reached, C105_login_violated), and a key of 2^32 bits has size 0 (C105_size_violated).
60. As in 54, but in other directions: programs that revert the same migration at the same time all execute its statements, and
    none of them notices, because removing a record that is gone is no error (C106_twice_violated); with `one_down` one is
    reverted twice instead of two (C106_back_violated). With programs that go
    up and others that go down a later migration may end up applied without an earlier one (C106_goal_violated), and a
    migration that was reverted last may stay recorded, so that it is never applied again (C106_agree_violated); every
    program ends without error.
61. The pool keeps no order among those who wait: a request that is polled again and again may never get a connection although
    everyone gives theirs back, because requests that come later take them first (C114_starved_violated; C114_every_violated: whatever its size).
62. A leap second of `chrono` is written as a DATETIME with a million microseconds or more, which MySQL has not; if it comes
    after another second than the 59th the crate itself refuses to read it back. Fractions below a microsecond are cut off
    without an error (C26_datetime_exact).
