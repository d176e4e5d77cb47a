{"id": "C01", "title": "Length prefixes survive the wire", "statement": "Every length-encoded integer the connector writes is self-delimiting: reading it back from a buffer that continues with arbitrary other bytes yields the same integer and leaves exactly those other bytes. The same holds for length-prefixed byte strings. The size computed in advance for such a field equals the number of bytes really written, and the first byte is never the NULL marker 0xFB or the error marker 0xFF.", "quantifier": "every u64 value, every byte string, every following byte sequence", "why_tests_cant": "2^64 values with three encoding boundaries (251, 2^16, 2^24); a wrong comparison at one boundary only shows on that value, and byte strings are unbounded.", "anchors": ["src/utils/buf_mut_ext.rs: BufMutExt::put_lenenc_int, put_lenenc_slice", "src/utils/mod.rs: lenenc_int_len, lenenc_slice_len", "src/connection/parse_buf.rs: checked_eat_lenenc_int, checked_eat_lenenc_slice, eat_lenenc_int"]}
{"id": "C02", "title": "Any outgoing payload is framed so that a conforming server reassembles it", "statement": "Whatever payload the connector sends (a query text, a command, an authentication answer, a statement execution) of whatever size, including empty and exact multiples of 16 MiB - 1, a peer that follows the MySQL packet rules reassembles exactly that payload from the bytes on the wire, sees consecutive sequence numbers (mod 256) starting from the connection's current one, and sees nothing left over.", "quantifier": "every payload of every length, every starting sequence number", "why_tests_cant": "Payloads at and around multiples of 16777215 bytes are expensive to test and the interesting sizes are unbounded; sequence numbers wrap after 256 frames (4 GiB).", "anchors": ["src/connection/io.rs: Connection::write_packet, write_struct, write_command", "src/connection/mod.rs: MAX_PAYLOAD_LEN"]}
{"id": "C03", "title": "Any well-framed server payload is received exactly and the stream stays aligned", "statement": "If the server frames a payload according to the MySQL packet rules with the sequence numbers the connection expects, the connector receives exactly that payload, its expected sequence number advances by the number of frames, and the next read starts at the first byte after the payload.", "quantifier": "every payload of every length, every sequence number, every continuation of the stream", "why_tests_cant": "Multi-frame packets need at least 16 MiB of data each; alignment must hold for every continuation of the stream, not for a sampled one.", "anchors": ["src/connection/io.rs: read_packet, read_packet_to_buf, read_chunk_to_buf", "src/utils/mod.rs: read_u32"]}
{"id": "C04", "title": "A frame with an unexpected sequence number is never delivered", "statement": "The connector only ever hands a payload to its caller if every frame of it carried exactly the expected consecutive sequence number and the frame lengths respect the packet rules; a frame carrying any other sequence number makes the call fail with the out-of-sync error.", "quantifier": "every byte stream a server (or an attacker) can send, every expected sequence number", "why_tests_cant": "The set of malformed byte streams is infinite; a test only shows rejection of one of them.", "anchors": ["src/connection/io.rs: read_packet_to_buf", "src/error/protocol.rs: ProtocolError::OutOfSync"]}
{"id": "C05", "title": "Statement parameters reach the server unchanged", "statement": "For every prepared statement id and every list of parameter values, a server that decodes the execute request according to the MySQL binary protocol recovers the same id and, parameter by parameter, the same type, signedness and value (NULL, integers of every width, float and double bit patterns, byte strings, dates, times, datetimes). The only value the wire format cannot keep is the sign of a zero TIME.", "quantifier": "every statement id, every list of up to 65535 parameter values, any bytes following", "why_tests_cant": "The encoding depends on the position of every NULL in the bitmap, on the zero-ness of each date component and on each length; combinations are unbounded.", "anchors": ["src/connection/packets/stmt_execute_request.rs: StmtExecuteRequest::new, serialize", "src/types/value/bin.rs: Value::serialize", "src/types/value/mod.rs: column_type, is_unsigned", "src/connection/types/null_bitmap.rs: NullBitmap"]}
{"id": "C06", "title": "Parameters too large for one packet reach the server unchanged", "statement": "When the parameters of a statement execution do not fit one packet, the long-data commands followed by the execute request make a conforming server end up with exactly the given parameter list: every byte string (also an empty one) is reassembled from its pieces in order under its own parameter index, nothing is sent twice, and the other parameters are unaffected.", "quantifier": "every parameter list of a statement (at most 65535 parameters, as a server announces their number in 16 bits), in particular byte strings of any length around the chunk limit", "why_tests_cant": "Needs parameters above 16 MiB; chunk boundaries and the mixture of large, empty and NULL parameters cannot be enumerated.", "anchors": ["src/connection/io.rs: send_long_data", "src/connection/packets/stmt_send_long_data.rs: StmtSendLongData", "src/connection/prepared_statement.rs: query_prepared_statement_unchecked, execute_prepared_statement_unchecked", "src/connection/packets/stmt_execute_request.rs: as_long_data"]}
{"id": "C07", "title": "The announced binary size of a value is its real size", "statement": "The binary length reported for a value (Value::bin_len) equals the number of bytes the value occupies in an execute request; it is zero exactly for NULL, which is what decides the NULL bit. (The unchanged code violates this for the all-zero DATE, which reports 1 but occupies 5 bytes.)", "quantifier": "every value", "why_tests_cant": "The value space is infinite and the size depends on which trailing components are zero.", "anchors": ["src/types/value/bin.rs: Value::bin_len, Value::serialize"]}
{"id": "C08", "title": "NULL bitmaps are exact", "statement": "In a NULL bitmap built for n columns, after any sequence of marking and unmarking, the bit read for column i is the last mark given to column i and no mark ever affects another column; reading a server bitmap reports NULL for exactly the columns whose bit the server set.", "quantifier": "every number of columns, every sequence of set operations, both the client (offset 0) and the server (offset 2) layout", "why_tests_cant": "Byte/bit index arithmetic with an offset must be right for every column index; tests see a few indexes.", "anchors": ["src/connection/types/null_bitmap.rs: NullBitmap::new, set, is_null, bitmap_len, byte_and_bit"]}
{"id": "C09", "title": "Binary rows decode to the values the server encoded", "statement": "For every list of columns and every row, if the server encodes the row according to the binary protocol (with any legal length for temporal values), the row decoder returns exactly the encoded values, NULL exactly where the bitmap says so, in column order.", "quantifier": "every column list of supported types and flags, every row of values of those types", "why_tests_cant": "Rows are unbounded lists over an infinite value space, with cross-column dependency through the shared buffer position.", "anchors": ["src/connection/types/protocol.rs: BinaryProtocol::read_result_set_row", "src/types/value/bin.rs: Value::deserialize_bin"]}
{"id": "C10", "title": "Text rows decode to the values the server printed", "statement": "For every list of columns and every row, if the server sends the row in the text protocol (NULL marker or length-prefixed text, canonical decimal integers, `YYYY-MM-DD`, `[-]HHH:MM:SS[.ffffff]`), the row decoder returns exactly those values; integers outside the column's range are rejected, never wrapped.", "quantifier": "every column list of supported types, every row, every integer of every width, every legal date/time, every fraction length 1..6", "why_tests_cant": "All integers of all widths, all dates/times and arbitrary column combinations cannot be enumerated.", "anchors": ["src/connection/types/protocol.rs: TextProtocol::read_result_set_row", "src/types/value/text.rs: Value::deserialize_text, deserialize_time_text, deserialize_date_text, deserialize_datetime_text"]}
{"id": "C11", "title": "A data row is never mistaken for the end of the result", "statement": "With the end-of-result convention negotiated by default, no row a conforming server can send, in text or binary protocol and of any size, is interpreted as the end of the result set, and the terminator is always recognised.", "quantifier": "every row whose fields have any sizes, in particular a first field of 16 MiB and more", "why_tests_cant": "The ambiguous first byte 0xFE only appears for first fields of at least 16 MiB.", "anchors": ["src/connection/result_set.rs: ResultSet::next, Connection::cleanup"]}
{"id": "C12", "title": "Iterating a result set yields exactly the server's rows", "statement": "For a result set the server sends after a query, repeatedly asking for the next row returns the rows in order, each exactly once, then reports the end and keeps reporting it without touching the connection; collecting returns the whole list; fetching one returns the first row and consumes the rest. Afterwards the connection is aligned with the stream and has no pending result.", "quantifier": "every number of columns, every number of rows, every row content, text and binary protocol", "why_tests_cant": "Result sets of unbounded length; the property is about alignment after an arbitrary history of reads.", "anchors": ["src/connection/result_set.rs: ResultSet::read, next, collect, one, finish", "src/connection/query.rs: query, read_column_defs"]}
{"id": "C13", "title": "An abandoned result set does not corrupt the next command", "statement": "If a caller stops reading a result set after any number of rows and drops it, the next command on the connection first discards exactly the remaining rows of the old result, and its own response is read from the right place: the caller gets the response the server sent for the new command.", "quantifier": "every result set, every abandonment point, every following command and response", "why_tests_cant": "All abandonment points of all result sets; the failure is a silently shifted response.", "anchors": ["src/connection/result_set.rs: Connection::cleanup", "src/connection/query.rs: execute_command", "src/connection/io.rs: write_command"]}
{"id": "C14", "title": "Server errors are reported verbatim and leave the connection usable", "statement": "When the server answers a command with an error packet, the caller gets the server error with the same code, SQL state and message; no row or success value is produced and the connection stays aligned for the next command.", "quantifier": "every error code, every SQL state, every message, every command kind", "why_tests_cant": "Unbounded messages and all codes; alignment after the error matters for every continuation.", "anchors": ["src/connection/packets/err.rs: ErrPacket::deserialize, ErrorPacket", "src/connection/io.rs: decode_response", "src/connection/result_set.rs: ResultSet::read", "src/connection/prepared_statement.rs: prepare_statement"]}
{"id": "C15", "title": "Success responses are reported verbatim", "statement": "For a command answered by a success packet the caller sees exactly the affected row count, the last insert id, the (known) status flags, the warning count and the message the server sent, for every value of those fields.", "quantifier": "every u64 row count and insert id, every status and warning word, every message", "why_tests_cant": "Both counters are length-encoded 64-bit integers; every combination of widths shifts the later fields.", "anchors": ["src/connection/packets/ok.rs: OkPacket::read_ok", "src/connection/io.rs: decode_response, read_response"]}
{"id": "C16", "title": "The end-of-result packet reports the server's status and warnings", "statement": "After reading a result set to its end, the summary returned to the caller (finish) carries the status flags and the warning count the server put in the terminator. (The unchanged code violates this: the marker byte is taken for a length prefix and the fields are shifted.)", "quantifier": "every status and warning word of a terminator packet", "why_tests_cant": "Tests that only check that finish succeeds cannot see shifted fields; all field values matter.", "anchors": ["src/connection/packets/ok.rs: OkPacket::read_eof", "src/connection/result_set.rs: finish, finish_into_inner"]}
{"id": "C17", "title": "Parameter count mismatches are refused locally", "statement": "Executing or querying a prepared statement with a number of values different from the number of placeholders the server announced returns the parameter-count error, sends no byte and leaves the connection unchanged; with the right number the request is sent.", "quantifier": "every announced parameter count, every value list", "why_tests_cant": "All pairs of lengths.", "anchors": ["src/connection/prepared_statement.rs: PreparedStatement::query, execute"]}
{"id": "C18", "title": "Preparing a statement consumes exactly the server's answer", "statement": "Preparing a statement sends the exact SQL text, takes the statement id and parameter count from the server's answer and consumes exactly the announced parameter and column definitions, so the next command is aligned (for servers with the negotiated end-of-result convention).", "quantifier": "every statement text, id, parameter count and column count", "why_tests_cant": "Any count up to 65535 of definition packets with arbitrary content.", "anchors": ["src/connection/prepared_statement.rs: prepare_statement", "src/connection/packets/stmt.rs: Stmt"]}
{"id": "C19", "title": "Every command is sent verbatim with a fresh sequence", "statement": "Each query, statement and disconnect request puts on the wire exactly one command: the command byte followed by the caller's bytes unchanged, framed starting at sequence number 0, after any pending result has been drained; nothing else is written.", "quantifier": "every query text (any UTF-8), every connection state without pending results, every previous sequence number", "why_tests_cant": "All texts of all lengths and all histories.", "anchors": ["src/connection/query.rs: execute_command, query, execute_query", "src/connection/init.rs: disconnect", "src/connection/command.rs: Command"]}
{"id": "C20", "title": "String literals cannot be broken out of", "statement": "The escaped form of any string, placed in a statement and followed by any further SQL text, is read by the MySQL lexer (default SQL mode) as exactly one double-quoted string literal whose content is the original string, and lexing continues at the further text.", "quantifier": "every string, every following SQL text that does not start with a double quote", "why_tests_cant": "Injection safety quantifies over all attacker-chosen strings and all contexts.", "anchors": ["src/types/value/text.rs: StringEscape, write_escaped_chars"]}
{"id": "C21", "title": "Quoted identifiers cannot be broken out of", "statement": "The quoted form of any identifier, followed by any text that does not start with a backquote, is read by the MySQL lexer as exactly one quoted identifier; its content is the input without the characters MySQL forbids and, unless nothing but whitespace and forbidden characters is left, without trailing whitespace. (The unchanged code keeps one leading whitespace character of an all-whitespace identifier.)", "quantifier": "every string, every following SQL text", "why_tests_cant": "All attacker-chosen identifiers and contexts.", "anchors": ["src/types/value/text.rs: IdentifierEscape"]}
{"id": "C22", "title": "Unquoted identifiers contain only allowed characters", "statement": "The unquoted form of any identifier consists only of 0-9, a-z, A-Z, $, _ and U+0080..U+FFFF, keeps the allowed characters of the input in order, leaves an already allowed identifier unchanged, and applying it twice is the same as once.", "quantifier": "every string", "why_tests_cant": "All Unicode strings.", "anchors": ["src/types/value/text.rs: UnquotedIdentifierEscape"]}
{"id": "C23", "title": "Displayed values are SQL literals that denote the value", "statement": "The textual form of a value denotes that value: integers are their decimal numeral, dates/times/datetimes are a quoted text which the text-protocol reader maps back to the same value, byte strings are a hexadecimal literal of exactly these bytes. Nothing in the text can terminate the quotation early.", "quantifier": "every integer of every width, every date with a four-digit year and two-digit month and day, every time and datetime with in-range components, every byte string", "why_tests_cant": "All values of all types.", "anchors": ["src/types/value/text.rs: Display for Value, format_date, format_time"]}
{"id": "C24", "title": "Hex text round-trips", "statement": "For every byte string, printing it as hex and parsing the text (by either parsing entry point, with 0x, 0X or no prefix, upper or lower case) yields the same bytes; a text with an odd number of digits or a non-hex character is rejected.", "quantifier": "every byte string, every text", "why_tests_cant": "All byte strings and all malformed texts.", "anchors": ["src/types/hex.rs: Hex::try_from_hex, FromStr, Display"]}
{"id": "C25", "title": "Converting a Rust value to a database value and back is lossless", "statement": "For every supported scalar type, a value converted into a database value and back is unchanged (integers of each width, f32/f64 bit patterns, bool, String, byte vectors, Hex), optional values map None to NULL and back, and a database value of any other kind is rejected with the wrong-value error naming the expected kind instead of being coerced. Nothing else is taken for a value: a database value is read as x exactly if it is the one x is written as (except for bool), an optional value is read as missing exactly if it is NULL, and NULL is refused where a value is needed.", "quantifier": "every value of every supported type, every database value", "why_tests_cant": "All values of all widths and all mismatching pairs.", "anchors": ["src/types/value/conversion.rs: impl_conversion!, From/TryInto impls, impl_try_into_option!", "src/types/hex.rs"]}
{"id": "C26", "title": "Calendar conversions are lossless or rejected", "statement": "A date with year 0..65535 and a datetime with such a year and microsecond resolution (a leap second only after the 59th second) survive conversion into a database value and back; a year outside that range is rejected; a database date or datetime that is not a real calendar date / clock time is rejected, never clamped or wrapped. Of every other datetime with such a year it is known what happens: what is below a microsecond is cut off, and a leap second after another second than the 59th is written but refused when it is read.", "quantifier": "every calendar date, every datetime, every date/datetime field combination from the server", "why_tests_cant": "All dates, leap years, leap seconds and all invalid field combinations.", "anchors": ["src/types/value/conversion.rs: TryFrom<NaiveDate>, TryFrom<NaiveDateTime>, TryInto<NaiveDate>, TryInto<NaiveDateTime>"]}
{"id": "C27", "title": "Durations convert with sign and microseconds", "statement": "A TIME value with in-range components converts to the duration sign * (days, hours, minutes, seconds, microseconds) and a duration of whole microseconds converts to a TIME value denoting the same amount. (The unchanged code loses the sign of durations strictly between -1 second and 0 and truncates day counts above 2^32.) A duration survives being stored exactly if it is of whole microseconds, not in that interval and shorter than 2^32 days; of every other one it is known as what it comes back.", "quantifier": "every duration, every TIME value", "why_tests_cant": "All signs and magnitudes; the failing range is a narrow interval.", "anchors": ["src/types/value/conversion.rs: From<Duration>, TryInto<Duration>"]}
{"id": "C28", "title": "The password is never sent in clear without permission", "statement": "On a connection that is not declared secure and with cleartext passwords not allowed, for every behaviour of the server (any handshake, any authentication switch, any answers, at any point) everything the connector writes while authenticating depends on the password only through the challenge-response hashes and the RSA encryption: it never sends the password itself.", "quantifier": "every server byte stream, every password, user, database name, options", "why_tests_cant": "Quantifies over all adversarial servers and all interleavings of authentication messages.", "anchors": ["src/connection/auth.rs", "src/connection/types/auth_plugin.rs: gen_data", "src/connection/init.rs: do_handshake_response"]}
{"id": "C29", "title": "A configured authentication plugin is never overridden by the server", "statement": "If the options fix an authentication plugin, then for every server behaviour the connector never answers a challenge with another plugin: a request to switch to a different plugin makes connecting fail before any further byte is sent.", "quantifier": "every server byte stream, every configured plugin", "why_tests_cant": "Downgrade attacks are adversarial server behaviours; tests cover a few.", "anchors": ["src/connection/types/auth_plugin.rs: gen_data", "src/connection/auth.rs: perform_auth_switch, continue_auth"]}
{"id": "C30", "title": "Authentication always terminates after at most one switch", "statement": "For every server byte stream, connecting terminates: at most one authentication switch is honoured, a second one is an error, and a bounded number of packets is read and written.", "quantifier": "every server byte stream", "why_tests_cant": "Adversarial servers could loop; unbounded behaviours.", "anchors": ["src/connection/auth.rs: continue_auth, perform_auth_switch, auth_switched"]}
{"id": "C31", "title": "A correct password always passes the server's check", "statement": "For every password and every nonce, the native and the SHA-256 challenge responses computed by the connector satisfy the verification a server performs with only the stored double hash (for any hash function with the right digest size); an empty password yields an empty response.", "quantifier": "every password, every nonce, every hash function of the right output size", "why_tests_cant": "All passwords and nonces; argument order inside the hash cannot be validated by a single vector.", "anchors": ["src/utils/scramble.rs: scramble_native, scramble_sha256, xor", "src/connection/types/auth_plugin.rs: gen_data"]}
{"id": "C32", "title": "connect() succeeds only if the server accepted the credentials", "statement": "If authentication completes without error then the server's last authentication message was an OK packet. (The unchanged code violates this on the fast path of the SHA-2 plugin: the packet after 'fast auth ok' is not inspected, so an error packet there is reported as success.)", "quantifier": "every server byte stream", "why_tests_cant": "Adversarial or failing servers at every point of the exchange.", "anchors": ["src/connection/auth.rs: continue_mysql_native_password_auth, continue_caching_sha2_password_auth"]}
{"id": "C33", "title": "RSA padding is decodable", "statement": "For every message that fits and every random seed, the padded block is accepted by an RFC 8017 OAEP decoder (SHA-1, empty label) and decodes to the message, whatever the hash function; messages that do not fit are rejected; the block has exactly the requested size and a leading zero byte.", "quantifier": "every message, every block size, every random seed, every 20-byte hash function", "why_tests_cant": "The mask generation loop has a remainder case per length; all lengths and contents matter.", "anchors": ["src/utils/crypt.rs: OaepPadding::pad, mgf1"]}
{"id": "C34", "title": "RSA encryption yields a full-size block the key owner can decrypt", "statement": "Encrypting with a public key yields a block as long as the modulus whose integer value is m^e mod n of the padded message, so the owner of the private exponent recovers the padded message; it never panics. (The unchanged code computes one octet too few when the modulus bit length is 1 mod 8 and can panic there.)", "quantifier": "every modulus and exponent, every padded message", "why_tests_cant": "All key sizes; failing sizes are 1 in 8 and failing ciphertexts are rare.", "anchors": ["src/utils/crypt.rs: PublicKey::encrypt_padded, num_octets"]}
{"id": "C35", "title": "Public keys parse to the key that was encoded", "statement": "For every modulus and exponent, the PEM text (PKCS#1 and PKCS#8 form, any line wrapping or whitespace) of the key parses to exactly that modulus and exponent; a text with other markers is rejected; and every text that is accepted is, up to whitespace, one of the two pairs of markers around the canonical base64 text of nested tag-length-content groups with exactly the tags SEQUENCE, INTEGER, BIT STRING, the key being made of the contents of the two integers.", "quantifier": "every modulus and exponent of any size, every whitespace layout, every byte string offered as a key", "why_tests_cant": "DER lengths switch between short and long form by size; all sizes and layouts.", "anchors": ["src/utils/crypt.rs: der::eat_len, eat_uint, eat_sequence, eat_bit_string, try_from_pkcs1, try_from_pkcs8, try_from_pem"]}
{"id": "C36", "title": "The handshake is decoded exactly", "statement": "For every well-formed initial handshake packet, the connector records the connection id, the capabilities common to both sides, a 20-byte nonce made of the two nonce parts, the authentication plugin named by the server and the numeric server version.", "quantifier": "every protocol version, version string, connection id, nonce, capability word, collation, status, plugin", "why_tests_cant": "All field combinations and version strings.", "anchors": ["src/connection/packets/handshake.rs: HandshakePacket::deserialize, parse_server_version", "src/connection/init.rs: handle_handshake"]}
{"id": "C37", "title": "The login request is decoded by the server to what the caller configured", "statement": "The handshake response, decoded by a server according to the capability flags it carries, yields exactly the configured user, authentication data, database (present exactly if configured) and plugin name; the flags announce exactly the fields that follow; the character set named is utf8mb4 exactly for server versions from 5.5.3 on, utf8 before.", "quantifier": "every user and database name without NUL, every authentication answer, every negotiated capability set", "why_tests_cant": "Field presence depends on capability bits; all combinations.", "anchors": ["src/connection/packets/handshake_response.rs: HandshakeResponse::new, serialize", "src/connection/options.rs: get_capabilities", "src/utils/buf_mut_ext.rs: put_u8_slice, put_null_slice"]}
{"id": "C38", "title": "The pool never opens more connections than its limit", "statement": "For every interleaving of tasks that request, poll, cancel and return connections, with creations succeeding or failing in any order, the number of connections in use, idle or being created never exceeds N, and no connection is ever held by two users at once.", "quantifier": "every number of tasks, every interleaving of the atomic steps, every creation outcome, every cancellation point", "why_tests_cant": "Concurrency: the number of schedules is unbounded and races are not reproducible.", "anchors": ["src/pool/async_pool.rs: PoolTake::poll, AsyncPool::put", "src/pool/pool_item.rs: Drop for PoolItem"]}
{"id": "C39", "title": "Returned connections are never lost", "statement": "Whenever a user returns a connection to the pool it becomes available to later requests: the idle queue never overflows, so every connection created and not in use is idle, and a request polled while an idle connection exists gets one.", "quantifier": "every interleaving", "why_tests_cant": "Concurrency; loss would need a full queue.", "anchors": ["src/pool/async_pool.rs: PoolPut::put, poll"]}
{"id": "C40", "title": "A waiting request is woken when a connection is returned", "statement": "If all connections are in use and a task waits for one, returning a connection eventually lets the task proceed. (The unchanged code violates this: the stored wakers are never used, so the waiting task is never scheduled again.)", "quantifier": "every interleaving in which a waiter is pending", "why_tests_cant": "A lost wake-up is a property of infinite schedules.", "anchors": ["src/pool/async_pool.rs: wakers, PoolTake::poll, PoolPut::put"]}
{"id": "C41", "title": "A failed or cancelled connection attempt frees its slot", "statement": "After a connection attempt fails or its future is dropped, the pool can still reach N usable connections. (The unchanged code violates this: the slot counter is never decremented, N failures make the pool unusable forever.)", "quantifier": "every history of failures and cancellations", "why_tests_cant": "Needs arbitrary histories of failures.", "anchors": ["src/pool/async_pool.rs: PoolTake::poll, poll_add, items"]}
{"id": "C42", "title": "Buffers from the shared buffer pool are always empty and bounded", "statement": "A buffer obtained from the buffer pool is empty whatever its previous users wrote into it, no buffer is handed to two users, at most 64 idle buffers are kept, and an idle buffer never keeps more than the configured capacity.", "quantifier": "every history of get, write and drop operations", "why_tests_cant": "Stale data leaks depend on histories.", "anchors": ["src/pool/sync_pool.rs: SyncPool::get, put, Vec::reset", "src/connection/mod.rs: BUFFER_POOL"]}
{"id": "C43", "title": "Timeouts never lose or duplicate a result", "statement": "An operation wrapped in a timeout yields the operation's own result if it is ready at any poll up to and including the poll at which the deadline is first seen, and the timed-out error exactly if the deadline has passed at a poll at which the operation is still pending; it finishes at the first such poll.", "quantifier": "every schedule of polls, every readiness time of operation and timer", "why_tests_cant": "All interleavings of readiness and polls.", "anchors": ["src/connection/timeout.rs: Timeout::poll"]}
{"id": "C44", "title": "Applying migrations runs each pending migration once, in order", "statement": "Bringing the database up (optionally to a version) runs exactly the not yet applied migrations of the selected versions in declaration order, stops at the first failure without running later ones, records each success, and running it again performs nothing.", "quantifier": "every ordered migration list whose versions have distinct migration names, every set of already applied migrations, every failure point, every target version", "why_tests_cant": "All lists, histories and failure points.", "anchors": ["src/migrator/migrator_inner.rs: up_to_version, up, get_applied, insert_applied"]}
{"id": "C45", "title": "Reverting migrations undoes in reverse order", "statement": "Bringing the database down to a version runs the down action of exactly the applied migrations with a larger version, in reverse declaration order, removes their records and keeps all others; undoing one step undoes only the last applied one.", "quantifier": "every ordered migration list whose versions have distinct migration names, applied set, failure point, target version", "why_tests_cant": "All lists and histories.", "anchors": ["src/migrator/migrator_inner.rs: down_to_version, one_down"]}
{"id": "C46", "title": "Moving to a version reaches exactly that version", "statement": "After successfully moving to a version, from any applied set, exactly the migrations of versions up to it are applied and recorded, both in the database and in the migrator's own view.", "quantifier": "every ordered migration list whose versions have distinct migration names, every initial applied set, every target version", "why_tests_cant": "All lists and initial states.", "anchors": ["src/migrator/migrator_inner.rs: to_version"]}
{"id": "C47", "title": "Migration bookkeeping survives crashes up to one step", "statement": "At every point at which the process can crash or an action can fail during up/down, the records in the database agree with the executed actions except possibly for the single migration in progress: a recorded migration was run, and at most one run migration is unrecorded; resuming runs nothing that is recorded.", "quantifier": "every crash point of every run", "why_tests_cant": "Crash points are between any two side effects of an unbounded run.", "anchors": ["src/migrator/migrator_inner.rs: up_to_version, down_to_version, new"]}
{"id": "C48", "title": "Version order is the lexicographic total order and list order is checked", "statement": "Versions are ordered by major, then minor, then patch; the order is total, and the order check accepts a migration list exactly if its versions are strictly increasing.", "quantifier": "every pair/triple of versions, every list", "why_tests_cant": "All triples of u16 triples.", "anchors": ["src/migrator/migration.rs: Ord for Version, MigrationList::ordered"]}
{"id": "C49", "title": "Migration bookkeeping statements name the right migration", "statement": "The bookkeeping statements the migrator issues, read by the MySQL lexer, contain exactly the migration's version numbers and a string literal equal to its name. (True only for names without quote or backslash; the unchanged code does not escape the name.)", "quantifier": "every version and every migration name", "why_tests_cant": "All names, including ones with quotes.", "anchors": ["src/migrator/migrator_inner.rs: up_to_version, down_to_version format! statements"]}
{"id": "C50", "title": "A model's generated query and its row mapping fit together", "statement": "For every model definition (plain columns, flattened structs, references to other models nested to any depth), executing the generated select and mapping each returned row to the model assigns to every field exactly the value of the column the query selected for that field. (Requires that no model has a reference field named like its own table; the unchanged code mixes up columns otherwise.)", "quantifier": "every model tree of every depth and width with at least one column per model and distinct names free of points and backquotes, every row", "why_tests_cant": "Recursive model definitions are unbounded; the mapping depends on string prefixes of nested aliases.", "anchors": ["src/model/into_query.rs: build_query, append_to_select, join", "src/model/from_query_result.rs: set_mapping, from_columns", "macros/src/lib.rs: derive_from_query_result, derive_into_query, derive_model_data"]}
{"id": "C51", "title": "Generated insert and update statements match their values", "statement": "For every list of named values, the generated insert names exactly these columns in order and has exactly one placeholder per value; the generated update assigns exactly these columns in order and has one more placeholder, for the primary key, which is the last value passed; so execution never fails with a parameter-count mismatch against a conforming server.", "quantifier": "every table name, key and list of named values (at least one for an update) with names free of backquotes", "why_tests_cant": "All list lengths and names.", "anchors": ["src/model/active_model/named_value.rs: into_insert, into_update", "src/model/active_model/update_model.rs: update", "src/model/active_model/mod.rs: insert"]}
{"id": "C52", "title": "Only set fields are written, referenced rows first", "statement": "Inserting an active model writes exactly the fields that are set, with their values; unset fields do not occur; for a reference to be inserted the referenced row is inserted before and the foreign key written is its own key if set and otherwise the id the server assigned; an update with nothing set sends nothing. Insert and update report a conversion error exactly when a set field of the model cannot be converted, namely the error of the first such field, and then send nothing for that model; otherwise they fail exactly when a row inserted for a reference or their own statement fails, with that failure.", "quantifier": "every active model tree with distinct field names per model, every combination of set and unset fields, every sequence of server-assigned ids", "why_tests_cant": "Exponentially many set/unset combinations on trees of any depth.", "anchors": ["src/model/active_model/active_value.rs", "src/model/active_model/active_reference.rs", "src/model/active_model/mod.rs: insert", "src/model/active_model/update_model.rs: update", "macros/src/lib.rs: derive_active_model"]}
{"id": "C53", "title": "Malformed server data never crashes the decoders", "statement": "Decoding any byte string as success packet, error packet, statement answer, column definition, authentication switch, NULL bitmap or length-encoded field returns a value or an error and never panics. (The unchanged code violates this elsewhere: unsupported column types, over-long time fractions, empty row packets, enormous column counts, malformed handshakes, key files.)", "quantifier": "every byte string", "why_tests_cant": "All malformed inputs.", "anchors": ["src/connection/packets/*.rs", "src/connection/parse_buf.rs", "src/types/value/bin.rs", "src/types/value/text.rs", "src/connection/init.rs: handle_handshake", "src/utils/crypt.rs"]}
{"id": "C54", "title": "Column metadata is decoded exactly", "statement": "For every column description whose names are shorter than 251 bytes, the connector reports exactly the table, name, original table, original name, type and flags the server sent. (Names of 251 bytes and more use a longer length prefix which the unchanged code misreads.)", "quantifier": "every column description", "why_tests_cant": "All names, all types, all flags.", "anchors": ["src/connection/packets/column_def.rs: ColumnDef::deserialize", "src/connection/types/column.rs: Column", "src/connection/types/column_type.rs: ColumnType", "src/connection/bitflags.rs"]}
{"id": "C55", "title": "Capabilities are never claimed beyond what both sides support", "statement": "The capabilities a connection uses are a subset of those the server offered and of those the connector implements; the database capability is requested exactly if a database is configured; a decoded flag word re-encodes to the same word.", "quantifier": "every capability word of the server, every option set", "why_tests_cant": "2^32 words times options.", "anchors": ["src/connection/options.rs: get_capabilities", "src/connection/init.rs: handle_handshake", "src/connection/bitflags.rs"]}
{"id": "C56", "title": "A response always answers the command that was sent", "statement": "Whatever happened before on a connection, the response delivered for a command is one the server sent for that command. (True as long as no earlier call failed with a timeout; the unchanged code violates it after a timeout: the late response of the earlier command is taken as the answer to the next one.)", "quantifier": "every history of commands, rows read, errors and timeouts", "why_tests_cant": "Unbounded histories with timing faults.", "anchors": ["src/connection/io.rs", "src/connection/query.rs", "src/connection/timeout.rs", "src/connection/result_set.rs: cleanup"]}
{"id": "C57", "title": "The server's packet limit is learnt when connecting", "statement": "If the options do not fix the maximal packet size, connecting asks the server for it and the connection reports exactly the number the server answered; otherwise it reports the configured one without asking.", "quantifier": "every server answer, every option", "why_tests_cant": "All u64 answers.", "anchors": ["src/connection/query.rs: read_settings", "src/connection/init.rs: handle_handshake, connect"]}
{"id": "C58", "title": "Field types are classified by their path suffix", "statement": "A field type counts as a plain column exactly if its path and one of the supported type paths agree on their common suffix, a byte vector or an option of such a type likewise; a declared flattened struct is recognised by its exact path; everything else is a reference to another model.", "quantifier": "every type path and generic argument", "why_tests_cant": "All paths.", "anchors": ["macros/src/parse.rs: TypeComplexity::from_path, path_matches, is_simple"]}
{"id": "C59", "title": "An error the server reports while sending rows reaches the caller", "statement": "If the server ends a result set with an error packet instead of the terminator (killed query, failing row), asking for the next row returns that error, the rows are never reported as complete or invented, and the connection can be used for the next command. (False for the code: the error is decoded as a row or reported as a malformed packet, and the next command waits for rows that never come.)", "quantifier": "every error code, SQL state and message, every column list and row type, both protocols", "why_tests_cant": "The error has to arrive in the middle of a result set, which a test server produces only under load or kill; all error contents and row types are quantified.", "anchors": ["src/connection/result_set.rs: next, cleanup", "src/connection/packets/err.rs"]}
{"id": "C60", "title": "Result sets of servers without the new end-of-result convention can be read", "statement": "On a connection for which CLIENT_DEPRECATE_EOF was not negotiated (the code has a branch for it), a result set with EOF packets after the column definitions and after the rows is read like any other: columns, rows and end. (False for the code: no such result set can be read.)", "quantifier": "every column list, every list of rows, every status and warning count", "why_tests_cant": "Needs a server older than MySQL 5.7.5; holds or fails for all result sets at once.", "anchors": ["src/connection/result_set.rs: read, next, cleanup", "src/connection/packets/ok.rs: read_eof", "src/connection/query.rs: read_column_defs"]}
{"id": "C61", "title": "A failed call leaves the connection usable", "statement": "After a call that returned an error which is not a failure of the stream, the following calls return what they return on a connection where the failed call never happened. (False for execute_query and execute of a command that answers with rows: later commands fail or get the answer of another command.)", "quantifier": "every history of calls and server answers", "why_tests_cant": "The damage shows only in later calls; all histories are quantified.", "anchors": ["src/connection/query.rs: execute_query", "src/connection/prepared_statement.rs: execute", "src/connection/io.rs: read_response"]}
{"id": "C62", "title": "The commands sent are exactly the documented ones and statements are released", "statement": "In every history of calls everything written after authentication is a sequence of whole commands, each a query, prepare, long-data or execute command; and a prepared statement that is dropped is released on the server. (The second part is false: no close command is ever sent.)", "quantifier": "every history of calls, every server behaviour", "why_tests_cant": "All histories; leaking server-side statements is invisible to a client test.", "anchors": ["src/connection/prepared_statement.rs", "src/connection/packets/stmt_close.rs", "src/connection/query.rs"]}
{"id": "C63", "title": "Logging in ends as the server decides, and the right password is accepted", "statement": "Played against a server that authenticates as the MySQL protocol says (switch to the account's plugin, mysql_native_password, caching_sha2_password with its cache, full authentication in clear text on a secure transport or encrypted with the server's key, mysql_clear_password), login sends exactly the client's side of a conversation the server understands, reads exactly the server's side, and ends as the server decided: success if it accepted, its error if it refused. With the right user and password the server accepts; with caching_sha2_password and an empty cache it accepts nothing else.", "quantifier": "every account (user, password, plugin), every greeting (C36's shape) and offered plugin, every challenge, cached or not, secure or not, key known or fetched, every RSA key that fits (C34), all hash functions with the right digest sizes, every configuration that does not fix another plugin or key", "why_tests_cant": "The combinations of plugin, switch, cache, transport and key are many and a test server offers few; passwords, challenges, keys and padding seeds are unbounded.", "anchors": ["src/connection/init.rs", "src/connection/auth.rs", "src/connection/types/auth_plugin.rs", "src/connection/packets/handshake.rs", "src/connection/packets/handshake_response.rs", "src/connection/packets/auth_switch_request.rs", "src/utils/crypt.rs"]}
{"id": "C64", "title": "A whole session behaves as its parts", "statement": "Against a server that authenticates (C63), answers the question for its packet limit and then every command: connecting fails with the server's error if the login is refused; otherwise it succeeds, the connection reports the configured limit or else the server's, and in every history of commands and uses of their results each step shows exactly what it shows on a connection that receives nothing but the answer to its own command.", "quantifier": "every server and configuration of C63, every limit and layout of the answer carrying it, every history of commands, answers and uses of results without stream failures", "why_tests_cant": "Sessions are unbounded; that nothing is left over between connecting and the first command (the unread end of the settings answer) shows only in combination.", "anchors": ["src/connection/init.rs: connect, read_settings", "src/connection/query.rs", "src/connection/result_set.rs", "src/connection/prepared_statement.rs"]}
{"id": "C65", "title": "Querying a model returns the stored rows with their references", "statement": "For every model definition and every database whose referenced tables have unique primary keys, the query generated for the model is accepted by the server, and whatever order the server returns the rows in, collecting the result gives exactly one value per row of the model's table all of whose references lead to a row, with every field holding what is stored in the row and in the rows its references lead to; afterwards the connection is ready for the next command.", "quantifier": "every sound model definition (any nesting of references), every database content, every server comparison, every row order, every conversion of fields", "why_tests_cant": "All nestings of models, all table contents and all row orders cannot be enumerated.", "anchors": ["src/model/into_query.rs", "src/model/from_query_result.rs", "macros/src/lib.rs", "src/connection/result_set.rs"]}
{"id": "C66", "title": "A server with tables stores exactly the rows of an active model", "statement": "For every tree of active models and every server that prepares and executes the statements it reads from the connector's bytes: inserting stores exactly the rows of the tree, referenced rows first, with precisely the set columns and with the keys the server generated as references, and the caller gets the reported id; if the server refuses a row, the rows before it are stored, nothing after it is sent, and the caller gets the server's error. Updating stores the new references and then assigns exactly the set columns of the rows with the given key, or sends nothing if none is set. In every case all answers are consumed and the connection is at rest.", "quantifier": "every active model tree with quotable names and convertible values of any size, every schema (defaults, generated keys, constraints, statement ids), every table content", "why_tests_cant": "All trees, values (including those sent as long data), schemas and refusals cannot be enumerated.", "anchors": ["src/model/active_model/mod.rs", "src/model/active_model/update_model.rs", "src/model/active_model/named_value.rs", "src/model/active_model/active_reference.rs", "src/connection/prepared_statement.rs", "macros/src/lib.rs"]}
{"id": "C67", "title": "A model that is inserted is found again by a query", "statement": "If a model value is inserted and the server stored it, a query of the same model type on the same connection returns it among its rows: every value read back, of the model and of everything it references, means what was written (generated keys aside).", "quantifier": "every model value with any nesting of references, every server whose tables declare the keys of the models, every table content, every row order", "why_tests_cant": "Needs all shapes of models, all values and all table contents.", "anchors": ["src/model/active_model/mod.rs", "src/model/into_query.rs", "src/model/from_query_result.rs", "macros/src/lib.rs"]}
{"id": "C68", "title": "Migrating executes exactly the statements of the pending migrations, each followed by its record", "statement": "Going up, going down, moving to a version and undoing one send, each as a command of its own, the statement of every migration to be applied or reverted, in order, directly followed by the statement that adds or removes its record, up to and including the first that fails, whose error is returned; the migrator takes for applied what it did before, changed by exactly the migrations whose own statement was answered with OK. Starting asks for the table, creates it or not, and reads it, and nothing else; it takes only known migrations for applied.", "quantifier": "every list of migrations with ascending versions and distinct names, every text of the migrations, every target, every view of the migrator, every state of the connection and every answer of the server, also malformed ones", "why_tests_cant": "Needs every answer of the server at every step, for all lists of migrations.", "anchors": ["src/migrator/migrator_inner.rs", "src/migrator/mod.rs", "src/migrator/model.rs", "src/connection/query.rs"]}
{"id": "C69", "title": "Migrating a database applies and records exactly the missing migrations, in order", "statement": "Against a server that keeps the table of migrations, starting a migrator creates the table if there is none, changes nothing else, takes for applied exactly the recorded migrations, and panics exactly if a recorded one is unknown. Migrating up then makes every migration that is not recorded take effect, in the order they are declared, and records it, up to the first refusal, which is returned; migrating down reverts the recorded ones above the target, the last first, and removes exactly their records. The next run takes up with the first migration that is not recorded; after a run without error there is nothing to do and only the table is asked for and read.", "quantifier": "every state of the database, every effect of other statements, every comparison of names, order of rows, further reason to refuse a record; every list of migrations with ascending versions and distinct names that do not contain quotes or backslashes", "why_tests_cant": "Needs all states of the database, all collations and all points of refusal; the interplay of the statements' text, the server's reading of it, the rows it sends and the view the migrator builds from them.", "anchors": ["src/migrator/migrator_inner.rs", "src/migrator/mod.rs", "src/migrator/model.rs", "src/connection/query.rs", "src/connection/result_set.rs"]}
{"id": "C70", "title": "The derive macros take a declaration for what it says, and the query fits the mapping", "statement": "All derive macros generate code for a declaration exactly if it is a struct with named fields of path types whose attribute gives table, key and auto increment in proper form and names an existing field as key. Then table, key and auto increment are those of the first attribute (the last string for a key), the columns are the plain fields and the suffixed fields of flattened structs, the others are references, and active models send the same names. For a program of such declarations the columns asked for are those looked for in the result, and with sensible names every field is read from its own column.", "quantifier": "every syntax tree of a declaration, every tree of declarations that refer to each other, every notion of identifiers, every content of the rows", "why_tests_cant": "Needs all declarations, with attributes in any order and number, valid or not; macros run at compile time and the agreement of three separately generated pieces of code is needed for all of them.", "anchors": ["macros/src/lib.rs", "macros/src/parse.rs", "src/model/into_query.rs", "src/model/from_query_result.rs"]}
{"id": "C71", "title": "Rust values given as parameters come back from a server unchanged", "statement": "Every value of the supported types (integers, floats, bool, String, Vec<u8>, Hex, NaiveDate, NaiveDateTime, Duration, and Options of them) that the database's types can hold is accepted as a parameter. A server that reads the commands and answers with rows formed of those parameters, in any number, selection and order, in the binary protocol, is read back as exactly the values given; the same for a later query in the text protocol. Durations strictly between -1 s and 0 lose their sign.", "quantifier": "every list of optional values of the supported types, every statement, every state of the connection without pending rows, every selection of parameters for every row, every column description and encoding of the rows a server may use", "why_tests_cant": "The value space of every type times every list of parameters, small or sent as long data, times all ways a server can encode the answer.", "anchors": ["src/types/value/conversion.rs", "src/connection/prepared_statement.rs", "src/connection/result_set.rs"]}
{"id": "C72", "title": "Rows of any query are read as models by the tables and names of their columns", "statement": "When a result whose columns belong to the tables of a model (also hand-written queries: columns missing, additional, repeated, in any order) is read as that model, every field is taken from the last column with its table alias and name; if all fields have such columns with convertible values the model has exactly these values, otherwise reading fails without panic with an error that names a field that has no column or is the error of converting one of these values. Columns of other tables should be ignored (they are not: they are taken for the model's own columns).", "quantifier": "every tree of models with sensible names, every list of columns, every row, every conversion", "why_tests_cant": "All models, all column lists and all rows; a wrong mapping yields values of the right type in the wrong field.", "anchors": ["macros/src/lib.rs", "src/model/from_query_result.rs"]}
{"id": "C73", "title": "Exactly the well-formed packets of a server are accepted, and taken for what they say", "statement": "A byte string is decoded as an ERR packet, a progress report, an OK packet, the answer to PREPARE, a column definition, a request to switch the authentication or a greeting with given contents if and only if it is an encoding of these contents in the layout of the protocol; liberal is the client only where stated (numbers not in shortest form, markers 0xFB and 0xFF as zero, fillers, first bytes and trailing bytes not looked at). In particular the SQL state of a reported error is always five bytes of valid UTF-8, as the unchecked casts on it require.", "quantifier": "every byte string, every capability word, all contents", "why_tests_cant": "Both directions over all byte strings: tests see some accepted and some rejected packets, not that nothing else is accepted.", "anchors": ["src/connection/packets/err.rs", "src/connection/packets/ok.rs", "src/connection/packets/stmt.rs", "src/connection/packets/column_def.rs", "src/connection/packets/auth_switch_request.rs", "src/connection/packets/handshake.rs", "src/connection/parse_buf.rs"]}
{"id": "C74", "title": "Exactly which texts are accepted as values, and what they denote", "statement": "In a text result a byte string is accepted as a value of a column if and only if it is one of the forms of that value: decimal numerals with optional sign and leading zeros within the range of the column's type and signedness, UTF-8 text that the standard library parses as a float, any bytes for string types, day YYYY-MM-DD, clock H+:MM:SS with nothing, one byte of any kind or a point and up to six digits after it, for DATETIME day and clock with one byte in between (hours modulo 24). A packet is accepted as a row if and only if it begins with such a cell (0xFB for NULL, otherwise length and text) for each column. Decoding panics exactly for non-NULL values of the types without a decoder and for clocks with more than six fractional digits that fit in 32 bits.", "quantifier": "every byte string, every list of columns, every value", "why_tests_cant": "Both directions over all byte strings and all types: tests sample accepted texts and cannot show that nothing else is accepted or where exactly panics are.", "anchors": ["src/types/value/text.rs", "src/connection/types/protocol.rs", "src/connection/parse_buf.rs"]}
{"id": "C75", "title": "Exactly which binary rows are accepted, and what they denote", "statement": "The bytes at the front of a packet are accepted as a value of a column if and only if they are its little-endian two's complement form, its length-prefixed string, or its date, datetime or time with a length byte; the client looks only at whether the announced length reaches 4, 7 and is 11 (8 and is 12) and that as many bytes are there. A packet is accepted as a row if and only if it is one byte of any kind, a NULL bitmap for the number of columns, and such values in order for the columns whose bit is clear; it ends in a panic if and only if a column of a type without decoder is not NULL and the values before it can be read.", "quantifier": "every byte string, every list of columns, every value", "why_tests_cant": "Both directions over all byte strings, bitmaps and column lists: tests sample accepted packets and cannot show that nothing else is accepted or where exactly panics are.", "anchors": ["src/types/value/bin.rs", "src/connection/types/protocol.rs", "src/connection/types/null_bitmap.rs", "src/connection/parse_buf.rs"]}
{"id": "C76", "title": "What any stream of bytes from a server is taken for", "statement": "On an idle connection, whatever bytes arrive: execute_query succeeds if and only if the next packet (framed with the expected numbers) is an OK packet, and fails with a server error if and only if it is an ERR packet with that code, state and message; prepare succeeds if and only if the first packet is a statement header and as many packets follow as it announces; a query and its rows are delivered if and only if the stream consists of a column count, that many column definitions, rows for these columns and an end-of-rows packet, and then exactly these columns, rows and status are delivered and exactly these packets are consumed. Reading the head panics exactly at a request for a local file or a column count for which no room can be reserved, reading rows exactly at an empty packet or at a row whose decoding panics.", "quantifier": "every connection state without a pending result, every stream of bytes and failures, every query, every list of parameters", "why_tests_cant": "Both directions over all streams: tests replay some conversations and cannot show that no other stream is mistaken for an answer, a row or an error.", "anchors": ["src/connection/io.rs", "src/connection/query.rs", "src/connection/result_set.rs", "src/connection/prepared_statement.rs", "src/connection/packets/ok.rs"]}
{"id": "C77", "title": "What happens in any state of a connection, whatever is left on the stream and whichever writes fail", "statement": "In every state of a connection: a command is sent if and only if either no result is pending or the stream shows packets that are neither empty nor an end of rows followed by a readable end of rows, and none of the calls that write the command's frames fails; nothing else of the stream is consumed. Statements (plain and prepared), prepare and queries succeed, or report a server error, if and only if in addition the packets that follow have the form described in C76. `one` returns the first of the rows if and only if all rows and their end can be read, `finish` the end under the same condition. Sending panics exactly at an empty packet among what was left, asking in addition at a request for a local file or a column count for which no room can be reserved, reading rows exactly at an empty packet, a cell of a type without decoder or (text) a time with a long fraction.", "quantifier": "every connection state including a pending result and any schedule of failing writes, every byte stream, every statement text, every list of parameter values, every list of columns", "why_tests_cant": "Both directions over all streams, all states left behind by earlier calls and all ways in which writes can fail: tests cover a handful of combinations and cannot show that nothing else is accepted or that nothing else panics.", "anchors": ["src/connection/result_set.rs", "src/connection/query.rs", "src/connection/prepared_statement.rs", "src/connection/io.rs"]}
{"id": "C78", "title": "Which conversations log a client in, whatever the server does", "statement": "On any stream and with any failing writes: connecting gets past authentication if and only if the packets on the stream are a readable greeting, then at most one request to switch to a plugin the caller allows, then an acceptance: an OK packet, or for caching_sha2_password either \"fast authentication succeeded\" and one packet of any kind, or \"full authentication\" with the password handed over (as it is on a secure stream, otherwise encrypted with the key known or asked for) and an OK packet. What is sent in between is exactly the login request, the response to the switch, the request for the key and the password. An error of the server is reported if and only if an ERR packet stands where the server answers the request, the switch, the request for the key or the password, and with its code, state and message. The client panics if and only if the greeting cannot be read, or full authentication on an insecure stream meets an empty challenge, a key the encryption panics at, or a key text the parser panics at.", "quantifier": "every stream of bytes, every schedule of failing writes, every configuration, every choice of hash functions and encryption", "why_tests_cant": "Both directions over all servers: tests replay some dialogues and cannot show that no other dialogue is taken for a successful login, that nothing else is sent, or that nothing else panics.", "anchors": ["src/connection/init.rs", "src/connection/auth.rs", "src/connection/types/auth_plugin.rs", "src/connection/packets/handshake.rs", "src/connection/packets/auth_switch_request.rs"]}
{"id": "C79", "title": "Exactly what a server has to send to make a login panic", "statement": "With the functions of the code (any hash with 20-byte digests): the parser of public keys panics if and only if the two markers share one to five dashes, or between the markers is base64 of bytes that end within one of the nested groups of a key (or whose bit string is empty); texts that are merely wrong give an error. Encryption yields the RFC 8017 block raised to the exponent if and only if the message leaves 44 bytes and the result fits into the block, and panics if and only if it does not fit, which needs a modulus of one bit more than whole bytes. The version text is read as a.b.c exactly if it begins with three decimal numbers below 65536 divided by one-byte separators, and panics exactly if a separator's position counted in characters, or the next one, falls inside a character. Putting this together gives exactly the conversations at which a login panics; on a secure stream, or when the caller wants another plugin than caching_sha2_password, only the greeting can do it.", "quantifier": "every text, every key, every message and random seed, every version text, every stream of bytes and every configuration", "why_tests_cant": "Both directions: tests show single texts that panic; that no other text, key or version does is a statement about all of them.", "anchors": ["src/utils/crypt.rs", "src/connection/packets/handshake.rs", "src/connection/auth.rs", "src/connection/init.rs"]}
{"id": "C80", "title": "After an update a query finds the new values, and everything else as before", "statement": "If a model is updated by its key and the server carries it out, then a query of the model sent on the same connection returns an object for each row whose references lead somewhere: the object of a row with the key has each set field with the value written, each other field with its old value, each kept reference with what it led to, each reference given by key with the row of that key, and each reference given as a model with the values of that model, at any depth. The objects of all other rows have in every field, also along references, the values from before the update. Every field is covered except keys that the server generates.", "quantifier": "every model type with any tree of references (none of them to the updated table), every choice of set fields and of kept, given or inserted references, every content of the tables, every schema (defaults, generated keys, constraints), every order of the rows in the answer", "why_tests_cant": "Ties the statement texts, the parameters, the order of the referenced inserts and the reading of joined rows together for all types and all tables; a test shows one update of one table.", "anchors": ["src/model/active_model/update_model.rs", "src/model/active_model/active_reference.rs", "src/model/active_model/named_value.rs", "src/model/into_query.rs", "macros/src/lib.rs"]}
{"id": "C81", "title": "A model can be queried with a condition and looked up by its key", "statement": "The text returned by build_query can be continued by any condition, order or limit: whichever of the joined rows the server answers with, in any order and number, sent as text or as a prepared statement with parameters, reading gives for each exactly the fields stored in the row of the model's table and in the rows its references lead to. In particular the query continued by ` where `table`.`key` = ?`, prepared and executed with a value, is read by the server as the same query restricted to that key with that value as its parameter, and `one` returns the object of the row with this key, or None exactly if there is no such row or one of its references leads nowhere.", "quantifier": "every model type with any tree of references, every continuation of the text, every content of the tables, every selection and order of the joined rows, every parameter value of any size", "why_tests_cant": "A test looks up a few keys in one table; the property connects the generated text, the reading of parameters, the joins and the mapping of columns for all types, tables and keys.", "anchors": ["src/model/into_query.rs", "src/model/from_query_result.rs", "src/connection/prepared_statement.rs", "src/connection/result_set.rs", "macros/src/lib.rs"]}
{"id": "C82", "title": "The text of an error says exactly what the server said", "statement": "Errors have no Display, a user sees their Debug text. For an error reported by the server this text has exactly one reading, as code, SQL state and message of the error packet, whatever these contain: quotes, backslashes, braces, line ends, terminal control sequences. So has the text of a progress report, and no two runtime errors have the same text; one about authentication methods names both. Different errors have different texts. The text of any string is a single line of printable characters.", "quantifier": "every code, state and message, every set of characters regarded as not printable, every statement executed in any state of the connection", "why_tests_cant": "Texts that are made to look like other fields or other log lines are endless; a test tries a few.", "anchors": ["src/connection/packets/err.rs", "src/error/mod.rs", "src/connection/query.rs"]}
{"id": "C83", "title": "Printing values of the connector does not reveal the password", "statement": "What is printed with {:?} of connection options, connections, items of a pool and errors does not depend on the password. (The code violates it: options and connections print the password as it is; what holds is that errors of connect and the connection data do not depend on it beyond the challenge responses.)", "quantifier": "every password, every other content of the options, every conversation with a server", "why_tests_cant": "Independence of the password is a statement about pairs of runs for all passwords.", "anchors": ["src/connection/options.rs", "src/connection/mod.rs", "src/connection/data.rs", "src/pool/pool_item.rs"]}
{"id": "C84", "title": "Moving a database to a version leaves exactly the migrations up to it", "statement": "If to_version(v) returns Ok, the table of migrations holds exactly the declared migrations with versions up to v, each once: what was missing was executed and recorded in order of declaration, then what was recorded above v was reverted, the last first, and its record removed; the migrator takes exactly the recorded ones for applied and a further call would send nothing. If something is refused, that is the error returned and everything before it stays done. one_down reverts the last declared migration that is recorded, removes exactly its record and returns true, and returns false without sending anything if none is recorded.", "quantifier": "every list of migrations with any statements, every content of the table and state of the database, every collation, every target version, every point at which the server refuses something", "why_tests_cant": "The result depends on which migrations are recorded in which order, on the collation and on where the server refuses; a test runs a few lists against one database.", "anchors": ["src/migrator/migrator_inner.rs", "src/migrator/mod.rs", "src/migrator/migration.rs", "src/connection/query.rs"]}
{"id": "C85", "title": "The users of a pool of connections do not see each other's results", "statement": "Whoever takes a connection from a pool and uses it is shown what they would be shown on a connection of their own that receives only the answers to their commands, whatever earlier holders asked and left unread. (The code violates it: after a failure to read an answer in time the connection goes back into the pool as it is, and from then on every command on it is taken to be answered by the answer to the command before, so that the next holder is shown the results of the one before; without failures of the stream it holds.)", "quantifier": "every size of the pool, every interleaving of requests, uses and returns, every command, every answer, any part of the results left unread", "why_tests_cant": "It is a statement about every history of a pool with every command on every connection.", "anchors": ["src/pool/async_pool.rs", "src/pool/pool_item.rs", "src/connection/mod.rs", "src/connection/io.rs", "src/connection/timeout.rs"]}
{"id": "C86", "title": "The server reads the commands that were issued, whatever the stream does", "statement": "The commands a server reads from the stream are the commands the caller issued, in order, except that one whose writing failed may be missing. (The code violates it: after a write that failed half-way the connection can be used further, and the server takes the bytes of the next command for the rest of the torn one, so that text which was properly quoted becomes SQL; for one call, and for a caller who gives up the connection when the stream fails, it holds.)", "quantifier": "every list of statements of every length, every point at which writing fails, every answer of the server", "why_tests_cant": "Where a write stops is not under the control of a test, and what the server makes of the rest depends on the two commands and the place.", "anchors": ["src/connection/io.rs", "src/connection/command.rs", "src/connection/query.rs", "src/connection/timeout.rs"]}
{"id": "C87", "title": "Which conversations make a connection", "statement": "On a stream that has been opened, whatever bytes arrive and whichever writes fail: connecting succeeds if and only if the conversation is a login the server accepts (C78), followed, unless the user has set a limit for packets, by the question for the server's limit and an answer that is an OK packet, a result without rows, or a result whose first row can be read and, if a column has the asked name, holds an unsigned number in the first such column. The limit in force is the user's, that number, or the default, and of the answer exactly the packets up to the first row are consumed. A server error is reported if and only if the login or the question is refused with it; connecting panics if and only if the login does (C78) or the answer is a request for a local file, an impossible column count, an empty packet or a cell of a type without decoder.", "quantifier": "every option set, every byte stream and every schedule of failing writes, every choice of the cryptographic functions", "why_tests_cant": "Both directions over all servers: tests run against a few real servers and cannot show that no other conversation yields a connection or a crash.", "anchors": ["src/connection/init.rs", "src/connection/auth.rs", "src/connection/query.rs", "src/connection/result_set.rs"]}
{"id": "C88", "title": "A client and a server never wait for each other, and it does not matter when answers arrive", "statement": "For every program that uses a connection through the library (connecting, queries, statements, reading results in every way, inserting and updating models, opening the migrator), going on as it likes after every result and error: what arrives later changes nothing of what was done before it; so against a server that answers what it has read the program ends in one way only, having written the same bytes, in whatever portions the answers are delivered, and once it can end every delivery can be continued to that end. Whenever it waits or ends, what it has written is whole packets; a call that waits has written its complete command, and connecting writes nothing before the greeting. Hence statements executed one after the other against a server that answers each command get to the end, each with its own answer, and the server has read exactly these statements - on every stream that can be plugged in.", "quantifier": "every program of calls, every server strategy that does not take back what it sent, every delivery of its bytes in portions, every connection state", "why_tests_cant": "Deadlocks and dependence on timing show up only under particular interleavings of two parties; tests try a few schedules with one server, this is about all schedules and all servers.", "anchors": ["src/connection/io.rs", "src/connection/query.rs", "src/connection/prepared_statement.rs", "src/connection/result_set.rs", "src/connection/auth.rs", "src/connection/init.rs", "src/connection/mod.rs"]}
{"id": "C89", "title": "Hex values survive being stored in a data format", "statement": "With the feature serde: a Hex value that was serialized and is deserialized again is the same bytes, whatever the data format does with structs of one field and whether it lends, shows or copies texts; exactly the texts that denote bytes are accepted, everything else is an error, and nothing panics.", "quantifier": "every byte string, every format (how it stores structs of one field, how it hands out texts), every call a deserializer can make", "why_tests_cant": "A test uses one format, usually one for which the round trip works; the property is about all formats and all values.", "anchors": ["src/types/hex.rs"]}
{"id": "C90", "title": "A call polled piece by piece does what it does at once", "statement": "Every operation on a connection (connecting, queries, statements, reading results, models, the migrator), polled as a future: whatever each poll of the stream finds (nothing yet, some bytes, some bytes accepted, an end, an error) and whenever polls are made, if the call ends it has ended as it does on a stream on which the same bytes arrive at once, with the same bytes written, the same error at the same place and the same connection afterwards; polls that find nothing and the division into pieces change nothing. Every outcome can be reached by some polls, the polls determine everything, every sequence of polls leads to an end or to a suspension (no call spins), and a suspended call that is polled again goes on from what it has read and written.", "quantifier": "every operation, every sequence of polls with every answer and delay, every timeout, every connection state", "why_tests_cant": "Tests run on a loopback connection where data comes in few pieces; the divisions and the moments of polls are unbounded, and errors of a hand-written future show up under particular ones.", "anchors": ["src/connection/timeout.rs", "src/connection/io.rs", "src/connection/query.rs", "src/connection/result_set.rs", "src/connection/prepared_statement.rs", "src/connection/auth.rs", "src/connection/init.rs"]}
{"id": "C91", "title": "A connection can be used after a call was dropped", "statement": "A future of a call can be dropped wherever it is suspended. Afterwards the connection can be used: the next command is sent as a whole and gets its own answer, and data in a table never becomes an answer.", "quantifier": "every operation, every suspension point (every sequence of polls), every following command", "why_tests_cant": "Cancellation can hit any of unboundedly many suspension points; tests cancel at a few, and the damage shows up only in a later call.", "anchors": ["src/connection/io.rs", "src/connection/query.rs", "src/connection/result_set.rs", "src/connection/timeout.rs"]}
{"id": "C92", "title": "Calls end in time", "statement": "A call ends, with a result or with an error, within a time that depends on the timeout that was set, on how late polls come and on the size of what it writes; and it does not fail as long as the server keeps sending.", "quantifier": "every operation, every server, every sequence of polls with delays", "why_tests_cant": "A test cannot wait for every slow server; a bound over all behaviours of the server is a statement about infinitely many schedules.", "anchors": ["src/connection/timeout.rs", "src/connection/io.rs", "src/connection/result_set.rs", "src/connection/query.rs"]}
{"id": "C93", "title": "Builds with fewer features log in with fewer servers and do nothing else differently", "statement": "With the default features connecting is what the other claims are about. Without caching-sha2-password a login succeeds exactly with the conversations in which the server names that plugin neither in its greeting nor in a request to switch, and accepts; a server error is reported exactly if it refuses instead; it panics exactly at a greeting that cannot be read or names the plugin; a request to switch to it is an error that names it; who logs in without the feature logs in with it, to the same result. Without time, connecting panics before anything is read unless a function to wait is provided, and with one nothing differs. If the user wants an authentication plugin, the one named in the greeting is ignored. (The code violates the last part for names the build does not know: it panics.)", "quantifier": "every set of features, every server, every option, every state of the stream", "why_tests_cant": "Builds with features turned off are rarely run at all, and which servers they can talk to is a statement about all servers.", "anchors": ["src/connection/types/auth_plugin.rs", "src/connection/init.rs", "src/connection/auth.rs", "src/connection/options.rs", "Cargo.toml"]}
{"id": "C94", "title": "Calling a stored procedure leaves the connection in step", "statement": "A prepared call of a stored procedure that produces result sets returns the rows of the first one; a procedure without result sets is told what it changed. Afterwards every statement is told its own answer. (The code violates the last part for procedures with result sets: the packets after the first result set are not read, as many of the next statements fail although the server executes them, and all statements after these are told the answer of an earlier one; if a left packet happens to have the number 1, without any error.)", "quantifier": "every procedure (any number of result sets, columns, rows), all parameters, every sequence of statements afterwards and every answers to them", "why_tests_cant": "Tests call procedures on their own or with few rows; what goes wrong shows at later statements, and whether there is an error at all depends on the number of rows modulo 256.", "anchors": ["src/connection/prepared_statement.rs", "src/connection/result_set.rs", "src/connection/options.rs", "src/connection/io.rs"]}
{"id": "C95", "title": "After the login nothing depends on who logged in, nor on what the handshake told but two bits", "statement": "What callers see and what is written to the server, in any use of a connection after the login, are the same for connections that differ in options (user, password, plugin, limit) and in all that the handshake told (challenge, version, id, key, packet limit), provided the two greetings agree in two capability bits; and nothing of it is changed by calls. In particular nothing a server sends after the login can get the password, or any function of it, out of the client.", "quantifier": "every sequence of calls (queries, statements, models, migrations), every pair of connections, every stream and every failure of it", "why_tests_cant": "That something has no influence is a statement about pairs of runs, for all servers including malicious ones.", "anchors": ["src/connection/query.rs", "src/connection/io.rs", "src/connection/prepared_statement.rs", "src/connection/result_set.rs", "src/connection/data.rs"]}
{"id": "C96", "title": "Commands fit the packet limit of the server", "statement": "No command that is sent is longer than the limit the server gave. (The code violates this: the limit is asked for and then not used for anything. What holds: for statements with parameters, however large, no command is longer than 16 MiB.)", "quantifier": "every limit, every statement, all parameters of all sizes", "why_tests_cant": "Tests use statements far below the limit; the sizes at which pieces go wrong are around 16 MiB.", "anchors": ["src/connection/query.rs", "src/connection/io.rs", "src/connection/packets/stmt_execute_request.rs", "src/connection/packets/stmt_send_long_data.rs"]}
{"id": "C97", "title": "Several models inserted one after the other are all found, each once", "statement": "If models of one type, with references nested to any depth, are inserted one after the other on a connection to a server that keeps tables, and every row is accepted, then the calls return one id per model in their order, the tables only grow, and a query of the type sent afterwards returns every one of the models: as many different rows as there are models, each read back as the model, with the key that was reported for it, its references included; models without references come with exactly the rows that were in the table before. If a row is refused, the models before it are stored, the caller gets the server's error, and nothing after it is sent.", "quantifier": "every number of models, every type of model, all values, every server state, every order of the rows in the answer", "why_tests_cant": "Tests insert one or two models and look at one of them; that none is lost or found twice holds for all sequences.", "anchors": ["src/model/mod.rs", "src/model/active_model/mod.rs", "macros/src/lib.rs", "src/connection/prepared_statement.rs", "src/connection/result_set.rs"]}
{"id": "C98", "title": "A whole program: log in, create a table, insert models, query them, disconnect", "statement": "The program of examples/hello_world.rs, run against a server that authenticates, tells its limit and keeps tables: with the right user and password it does not panic, sends exactly the login, the question for the limit, its statements and the good-bye, reads exactly the answers, and ends with both users, each once, with the ids the server stored them under; if the login is refused it panics. The same for any models in place of the users, with the errors instead of panics.", "quantifier": "every server as described, every user name and password, every limit, all models, every order of the rows", "why_tests_cant": "The example is run by hand against one server; here every part of the library used by it is exercised together for all servers.", "anchors": ["examples/hello_world.rs", "src/connection/mod.rs", "src/connection/query.rs", "src/model/mod.rs", "src/connection/result_set.rs"]}
{"id": "C99", "title": "A migration that fills a column sets it for exactly the users with one address", "statement": "The migration of examples/migrations/migrations/v0_1_1.rs, run on three connections to one server that has users and addresses: it adds the column, asks for every user, in the order in which they arrive, for at most two addresses and assigns the address of those who have exactly one; if nothing is refused, afterwards the column is set for exactly these users, to that address, nothing else has changed, and all three connections are at rest. The first refusal ends it with the server's error; the column is there then, so a second attempt fails at a server that refuses an existing column. Undoing it drops the column. With a pool of fewer than three connections it can never go on.", "quantifier": "every server as described, all users and addresses, every order of rows, every refusal, every pool history", "why_tests_cant": "The example is run by hand on small tables; calls on several connections interleave differently for every table.", "anchors": ["examples/migrations/migrations/v0_1_1.rs", "src/connection/query.rs", "src/connection/result_set.rs", "src/connection/prepared_statement.rs", "src/pool/async_pool.rs"]}
{"id": "C100", "title": "Migrations that use a pool take effect and are recorded, whichever connections they get", "statement": "A migrator on a pool, with migrations that are arbitrary programs on connections of the pool, each doing something definite to the database or being refused: starting it creates the table if there is none and takes for applied exactly what is recorded; migrating up makes every migration that is missing take effect, in the declared order, and records it, up to the first thing refused, which is the error returned; migrating down undoes and forgets, the last one first. What becomes of the database and of the records is a function of what they were, not of the connections the pool hands out, as long as it hands out none that somebody has; the pool of the code does not. The program of examples/migrations undoes whatever of its three migrations is recorded and does all of them again; if nothing is refused the records are the three afterwards, in order; it panics if and only if something is refused. If the migrations need at most n connections at a time, n at least 1, the migrator never holds more than n and gives all of them back, whatever it is answered; the example needs three, and runs through on every pool of the library with at least three places without waiting for a connection to come back, opening at most three.", "quantifier": "every server as described, all migrations whose names contain neither quotes nor backslashes, all records of declared migrations, every target version, every choice of connections by the pool, every refusal", "why_tests_cant": "Which connection a call gets depends on the whole history of the pool; the example is one program against one server.", "anchors": ["src/migrator/migrator_inner.rs", "src/migrator/migration.rs", "src/migrator/mod.rs", "src/pool/async_pool.rs", "src/pool/pool_item.rs", "examples/migrations/main.rs", "examples/migrations/migrations/v0_1_0.rs", "examples/migrations/migrations/v0_1_1.rs"]}
{"id": "C101", "title": "Several programs may migrate one database at the same time", "statement": "Several programs, each of which starts a migrator and migrates up, share one database; the statements they execute come one after the other in any order. Every migration takes effect once and is recorded once, no program fails because of the others. (Violated: a migration takes effect in every program that read the table before it was recorded, and programs fail because a record or the table is there already. What holds: rows are only added, no migration is recorded twice, what is recorded has taken effect in the program that recorded it; a program that ends without error finds all its migrations recorded; of the programs in which one migration takes effect one at most ends without error; a program that reads the table after a migration was recorded does not execute it; every program ends after three statements and two per migration, whatever the others do; if nothing is refused but what is there already, one of them ends without error and everything is recorded.)", "quantifier": "any number of programs with any lists of migrations (names without quotes and backslashes, of 255 characters at most), every state of the database, every order of the statements, programs that stop in between included", "why_tests_cant": "The orders in which statements of several programs can be executed are too many to try, and a test cannot choose one.", "anchors": ["src/migrator/migrator_inner.rs", "src/migrator/mod.rs", "src/migrator/model.rs"]}
{"id": "C102", "title": "Release builds do what builds with overflow checks do", "statement": "Arithmetic that leaves its type panics in a build with overflow checks (Cargo's default for development) and wraps in a release build. Whatever the server sends and whatever calls are made, a release build ends every call the same way and leaves the connection in the same state as a build with checks, unless the latter panics: connecting, reading result sets in each of the four ways, starting a migrator, writing a value as text, and whole histories of calls; also poll by poll, so that a call dropped while it waits has read and written the same and leaves the same connection. Where the build with checks panics: a challenge of 128 to 135 bytes is taken as the protocol has it; from a time with more than six digits after the point the fraction is dropped; a time of 2^32 hours or more is written with its hours modulo 2^32; lists of migrations out of order are accepted.", "quantifier": "every connection state and everything a server can send, all calls and histories of calls, all values, all lists of migrations", "why_tests_cant": "Tests run in one profile, usually with checks, and only on the inputs they try; that the other profile does the same on all inputs is a statement about both programs.", "anchors": ["src/connection/packets/handshake.rs", "src/types/value/text.rs", "src/connection/types/protocol.rs", "src/migrator/migrator_inner.rs", "src/connection/init.rs"]}
{"id": "C103", "title": "Packet code that no caller reaches yet follows the protocol", "statement": "The crate contains packet code that its own calls never reach with other than fixed arguments. A login request with connection attributes is understood by a server as exactly the attributes, user, answer, database and plugin it was given, and announces the capability iff it has attributes. A request to change the authentication method that is written and read again is the same request (violated: the header is that of an OK packet, 0x00 instead of 0xFE, so the connector takes what it wrote for a successful login, and a challenge that ends in a zero byte loses it). The end-of-rows packet of old servers is read with the status and warnings it carries (violated: the marker in front is taken for the low byte of the warnings). The two halves of a 32-bit integer, written and read, give the integer. The readers that do not check the length return what the checked ones return and panic exactly where those report that the packet is too short.", "quantifier": "all attributes, users, answers, databases, plugins and capabilities; all challenges; all status and warning values; all bytes that can be read", "why_tests_cant": "No call of the crate runs this code with these inputs, so no test of the public API reaches it; that the checked and the unchecked readers agree is a statement about all packets.", "anchors": ["src/connection/packets/handshake_response.rs", "src/connection/packets/auth_switch_request.rs", "src/connection/packets/ok.rs", "src/connection/parse_buf.rs", "src/connection/types/ints.rs"]}
{"id": "C104", "title": "The blocks that the compiler does not check are sound", "statement": "In the eight blocks where the crate steps outside what the compiler checks, nothing undefined happens, whatever bytes the server sends: numbers and arrays read through a pointer lie within the slice the pointer was made from, also if other data follows in memory, and have the value that reading with checks gives; the SQL state of every error that connecting, any call, inserting or updating a model reports is five bytes of UTF-8, so that taking it for text without a test is right; giving a vector back to a pool leaves it empty and within the limit. Giving a vector back also drops what was in it (violated: the values are forgotten, a leak for values that own something; the crate itself keeps bytes there).", "quantifier": "all packets, all memory around them, all connection states and histories, all calls, all vectors", "why_tests_cant": "Undefined behaviour need not show: a read past a slice usually returns whatever lies behind it. A test sees it only on a machine that checks every access and only for the packets it tries.", "anchors": ["src/connection/parse_buf.rs", "src/connection/serialization.rs", "src/connection/packets/err.rs", "src/pool/sync_pool.rs", "src/pool/pool_item.rs"]}
{"id": "C105", "title": "A program on a target with addresses of 32 bits does what it does on one with 64", "statement": "Built for a target with addresses of 32 bits, the crate does what it does on one with 64, as long as the data fits into memory: whatever is accepted with 64 bits, rows, results read row by row, at once, only the first or only the end, OK packets, errors, prepared statements, commands and queries, storing models with their references and updating them, opening a migrator and migrating up and down, is accepted with 32 bits with the same values, the same bytes are sent and the same is left to read; texts shorter than 2^32 bytes, what a server sends as OK packet, public keys encoded as the standards say, the mask of the padding and limits below 2^32 are the same. Logging in runs the same on both, whatever the server sends, if the keys in use are encoded like this and have fewer than 2^32 - 6 bits; and a connection that is made with 64 bits is made with 32, with the same bytes sent and the same connection, but for a limit of 2^32 or more, which is cut. On streams in which nothing looks like a length of 2^32 or more, errors and panics are the same as well, also of connecting, storing models and migrating. What is refused with 64 bits is refused with 32 (violated: a length or a number of columns of 2^32 or more loses its upper half, and rows, messages and columns that nobody sent are delivered); every key that is accepted is accepted (violated for lengths in five to eight bytes).", "quantifier": "all packets below 2^32 bytes, all columns, all connection states and streams, all calls and parameters, all keys", "why_tests_cant": "Tests run on the machine of the developer, which has 64 bits; and a packet that claims a length of 2^32 or more, which is what matters, is none a server sends.", "anchors": ["src/connection/parse_buf.rs", "src/connection/result_set.rs", "src/connection/query.rs", "src/connection/prepared_statement.rs", "src/connection/packets/ok.rs", "src/connection/packets/err.rs", "src/utils/crypt.rs", "src/connection/auth.rs", "src/connection/init.rs", "src/model/active_model/mod.rs", "src/migrator/migrator_inner.rs"]}
{"id": "C106", "title": "Several programs may move one database to versions at the same time", "statement": "Several programs, each of which starts a migrator and migrates up, up to a version, down to a version, to a version or one down, share one database; the statements they execute come one after the other in any order. What they leave is what they would leave one after the other, a migration is recorded if and only if it is in effect, and nothing takes effect twice. (Violated: a migration is reverted by every program that read it in the table, and none of them notices (two programs that go one down each revert one migration twice); with programs going both ways a migration may be recorded although it was reverted last, and a later migration may be applied without an earlier one, with every program ending without error. What holds for every order: no migration is recorded twice, every change of the records is made by a program in which the migration took effect or was reverted before; what a program does, in which order, follows from the records at the time it read them and its goal, each once, and all of it if it ends without error; every program ends after three statements and two per migration; a migration that no program reverts stays and is recorded once a program that applies it ends without error, one that no program applies stays away; programs that move to one and the same version leave exactly what belongs to it; if no two programs are between reading the table and their end at the same time, records and effects agree; a program fails only because the server refuses a migration, a record or the table; of programs with the same migrations, whatever their goals, one ends without error if nothing but records that exist and the table that exists is refused, so that programs that move to one version leave exactly what belongs to it.)", "quantifier": "any number of programs with any lists of migrations (names without quotes and backslashes, of 255 characters at most) and any goals, every state of the database, every order of the statements, programs that stop in between included", "why_tests_cant": "The orders in which statements of several programs can be executed are too many to try, and a test cannot choose one; the wrong outcomes need two or three programs in particular orders.", "anchors": ["src/migrator/migrator_inner.rs", "src/migrator/mod.rs", "src/migrator/model.rs"]}
{"id": "C107", "title": "Programs that store models in one database at the same time do not disturb each other", "statement": "Several programs, each on a connection of its own, insert models with the models they refer to and update rows; the statements come to one server one after the other, in any order. Every program does what it does alone: a program that ends without error stored all its models, every reference got the key of the very row that was inserted for it (not of a row another program inserted in between), and the ids returned are those the server reported for its own rows; a program fails only because the server refused the statement it was at, with that error, and what it did before stays. Each program executes at most one statement per model. All models of one type inserted by programs that ended without error are in the table, each in a row of its own, and a query afterwards returns them. Updates change exactly the rows with the key and the columns that are set: a column has the value the last update of its row gave it, columns no program sets stay, and two programs that set different columns of one row do not overwrite each other.", "quantifier": "any number of programs with any lists of inserts and updates, every model and nesting of references, every server that assigns ids and defaults as it likes and refuses what it likes, every order of the statements, programs that stop in between included", "why_tests_cant": "The orders in which statements of several programs can be executed are too many to try and a test cannot choose one; a key taken from the wrong place would show only if another program inserts between a model and the one that refers to it.", "anchors": ["src/model/active_model/mod.rs", "src/model/active_model/active_reference.rs", "src/model/active_model/update_model.rs", "macros/src/lib.rs"]}
{"id": "C108", "title": "A query sees whole models while others are being inserted", "statement": "While any number of programs insert models with the models they refer to, a query of a type of models on any connection, at any time between two of their statements, returns exactly one model for every row that is in the table then: no reference leads nowhere, even if a program is, was interrupted or has failed between a model and the one it refers to. Among them is every model whose insertion was finished by then, by the same program or by another, as it was given, with the values of the models it refers to. Whatever a query returned, every later one returns again, with the same values.", "quantifier": "any number of programs with any lists of models and nesting of references, every order of the statements and every moment, programs that stop or fail in between included, every server and every content of the tables before in which references lead somewhere", "why_tests_cant": "The moment at which a query comes cannot be chosen by a test, and a row without the one it refers to would only be there between two statements of one call, or after a failure at just that place.", "anchors": ["src/model/active_model/mod.rs", "src/model/active_model/active_reference.rs", "src/model/into_query.rs", "macros/src/lib.rs"]}
{"id": "C109", "title": "References lead to rows while programs insert and update", "statement": "If every value of a reference column is the key of a row before, then it is at any time while any number of programs insert and update models on their connections, as long as each of them keeps to this: a model inserted into the table comes with the reference, given as a model to be inserted whose key the client knows or as the key of a row that was there from the start; an update of the table leaves the reference or gives it in one of these ways; and no update sets the key of the table referred to. What once leads to a row leads to one from then on. So a query of a type of models at any time returns an object for every row of its table. Inserting a whole model, with all it refers to, keeps to it; changing a key does not, and the models referring to it vanish from queries.", "quantifier": "every link between two tables, any number of programs with any lists of inserts and updates, every order of the statements and every moment, programs that stop or fail in between included, every server and every content of the tables before in which references lead somewhere", "why_tests_cant": "An update first inserts the model referred to and then changes the rows; other programs come in between, and whether a reference leads nowhere for a moment depends on the order of statements, which tests cannot choose or enumerate.", "anchors": ["src/model/active_model/mod.rs", "src/model/active_model/active_reference.rs", "src/model/into_query.rs", "macros/src/lib.rs"]}
{"id": "C110", "title": "Tasks that share a pool store models at the same time", "statement": "Any number of tasks share the connections of a pool; for each model to insert or update a task takes a connection nobody holds, stores, and gives it back, also when the server refused a statement. Then every call gets the id of its own row or the error of its own statement, whoever used the connection before and however that ended; every connection given back is at rest; a task gets the ids of all its models in order, or those before the first failure were stored; and the tables, what happened and how each task ended are as if every task had a connection of its own. Whole models inserted are found by queries as they were given. No deadlock: as long as a task has not ended, some task can go on, however few connections there are, and the number of turns is bounded by models plus two per job.", "quantifier": "every number of tasks and connections, every list of inserts and updates of each task, every interleaving of their statements and every choice of the connection taken, every server and every content of the tables before, refusals included", "why_tests_cant": "Which connection a task gets and which statements come in between is decided by the scheduler; the combinations are unbounded, and a reply left unread by one task shows only in another.", "anchors": ["src/pool/async_pool.rs", "src/pool/pool_item.rs", "src/model/active_model/mod.rs", "src/model/active_model/active_reference.rs", "macros/src/lib.rs"]}
{"id": "C111", "title": "What is printed of a failure has exactly one reading, on one line or on several", "statement": "The Debug text of every error and every value, in the form {:?} and in the indented form {:#?}, is read back as exactly what was printed, whatever strings, bytes and numbers are in it; two different things never have the same text in any of the forms. Hence a failed conversion is reported with the type that was asked for and the value that was there, a date or duration that does not exist with its value, an unknown flag with its bits, bytes that are not a value of the type with the bytes, a packet nobody expected with its bytes, and an error of the server, received in any state of the connection, with its code, state and message.", "quantifier": "every error, every value, every conversion, every content of messages, names and packets, every set of characters the standard library escapes, both forms", "why_tests_cant": "Texts of errors are read by people and by programs that read logs; tests compare a few of them. Messages come from the server and may contain quotes, brackets, commas and line ends in any order, at any depth of indentation.", "anchors": ["src/error/mod.rs", "src/error/parse.rs", "src/error/protocol.rs", "src/connection/packets/err.rs", "src/types/value/mod.rs", "src/types/value/conversion.rs", "src/connection/options.rs"]}
{"id": "C112", "title": "Tasks that take the connections for storing models from the library's pool", "statement": "Any number of tasks store models; for every job a task asks the pool for a connection, polls until it has one, stores, and drops the connection, which gives it back; it may give up waiting, and ask again when a connection could not be opened. In every order of all the single steps of polls, creations, statements and drops: a connection is used by one task at a time, which holds the only live handle of it; all jobs are done on the at most N connections of the pool; on every idle connection the calls made on it one after the other got exactly the results the tasks have and left it at rest; and the tables, ids and errors are those of a history in which each task did its own jobs. As long as not all places were lost to connections that could not be opened, the tasks can come to their end. And they do, with their ids or an error of the server, in every execution without end in which every task that has not ended is polled again and again, woken or not, and from some time on connections can be opened, nobody gives up waiting and the counter of the pool is seen as it is. Models inserted by tasks that ended without error are in the tables as given, and a query finds each of them once.", "quantifier": "every number of tasks, every list of inserts and updates for each, every size of the pool, every server, every interleaving of the steps of polls, of opening connections, of statements, cancellations and drops; every infinite execution that is fair to all tasks", "why_tests_cant": "What has to fit together is the counter and the queue of the pool with the state each connection is left in after a job, for all interleavings; tests run a few of them with an executor that polls in a fixed way.", "anchors": ["src/pool/async_pool.rs", "src/pool/pool_item.rs", "src/model/active_model/mod.rs", "src/connection/mod.rs"]}
{"id": "C113", "title": "How many places a pool needs for tasks that hold several connections at a time", "statement": "Tasks get connections from the pool of the library and drop them, holding several at a time; they may give up waiting or end early, and drop what they hold at their end. If task i holds at most n_i at a time and the pool has more than the sum of the n_i - 1 places, not counting those lost to connections that could not be opened, the tasks never lock each other up: in every state they have got into by any interleaving of the steps of the pool, they can all come to their end without any of them giving up. Moreover they do: with that much room, in every execution without end in which every task that has not ended is polled again and again, woken or not, and from some time on no connection fails, nobody gives up and the counter of the pool is seen as it is, all tasks end. With one place less this is false for all tasks that begin by getting n_i connections one after the other: without any failure they can get into a state in which each of them waits, and from which none of them ever gets on as long as none gives up. The program of examples/migrations needs three at a time, so four of them have room on its pool of ten places and five have not.", "quantifier": "every number of tasks, every program of gets and drops for each, every size of the pool, every interleaving of the steps of polls, of opening connections, of cancellations and drops, every infinite execution that is fair to all tasks", "why_tests_cant": "A deadlock needs a particular interleaving of the tasks, and its absence is a statement about all of them.", "anchors": ["src/pool/async_pool.rs", "src/pool/pool_item.rs", "examples/migrations/main.rs", "examples/migrations/migrations/v0_1_1.rs"]}
{"id": "C114", "title": "A request that is polled again and again gets its turn", "statement": "A task waits for a connection of the pool and is polled again and again; everyone who has a connection gives it back, and no connection fails. Then the task gets a connection at some time. (The unchanged code violates this: there is no order among those who wait, so requests that come later can be served before it for ever.) What holds: a poll that is not disturbed gets or opens a connection exactly if not all places are in use, being opened or lost; and if finitely many tasks use one connection at a time, as often as each of them likes, and one place is left, each gets all its connections.", "quantifier": "every infinite execution of the pool in which nobody gives up and the request is polled infinitely often; for what holds, every state of the pool, every number of tasks and every program of gets and drops", "why_tests_cant": "Starving is a property of an infinite execution: every finite test ends before one can say that the request is never served.", "anchors": ["src/pool/async_pool.rs", "src/pool/pool_item.rs"]}
{"id": "C115", "title": "In a pool that is large enough nobody waits", "statement": "As long as at every time the requests that have not ended, together with the places lost to failed or cancelled creations, are at most N, no request has to be woken by another: none is ever registered with the pool, each one between two polls is due to be polled, the next undisturbed poll gets or opens a connection, and under every executor that polls only what was woken, whatever the other requests do, each request that is not given up has a connection or one being opened for it at some time.", "quantifier": "every pool size, every interleaving of any number of requests that are at most N at a time, every infinite execution of an executor that makes no spurious polls", "why_tests_cant": "That no wake-up is ever needed depends on every interleaving of the loads and exchanges of the counter; a test runs a few of them, and being served at last is a property of infinite executions.", "anchors": ["src/pool/async_pool.rs", "src/pool/pool_item.rs"]}
