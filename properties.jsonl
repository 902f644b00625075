{"id": "C01", "title": "CBOR decode inverts encode", "statement": "For every CBOR value the writer accepts (maps without duplicate keys, nesting within the limit, integers in range), the bytes it produces are accepted by the reader with the same nesting limit and decode to the same value; building a map value from any entries without duplicate keys gives entries in canonical order.", "quantifier": "all CBOR values of any size and shape, all nesting limits", "why_tests_cant": "The value space is infinite and recursive; tests sample a few shapes and lengths.", "anchors": ["libraries/cbor/src/writer.rs:write_nested", "libraries/cbor/src/reader.rs:read_nested"]}
{"id": "C02", "title": "CBOR input is canonical", "statement": "Whenever the reader accepts a byte string, re-encoding the decoded value gives back exactly that byte string. Hence no two different byte strings decode to the same value, and every non-canonical form (non-minimal lengths, unsorted or duplicate map keys, indefinite lengths, trailing bytes) is rejected.", "quantifier": "all byte strings and all nesting limits", "why_tests_cant": "Needs to be true of every malformed message a host may send; a parser bypass is one byte string among 2^n.", "anchors": ["libraries/cbor/src/reader.rs:Reader", "libraries/cbor/src/writer.rs:Writer"]}
{"id": "C03", "title": "CBOR reader bounds nesting and never panics", "statement": "On every byte string the reader returns a value or an error and never reads outside the input; a returned value never nests deeper than the limit given, so the recursion depth is bounded by the limit whatever the input.", "quantifier": "all byte strings, all limits", "why_tests_cant": "Stack exhaustion and out-of-bounds need adversarial inputs; tests try a handful.", "anchors": ["libraries/cbor/src/reader.rs:read_nested", "libraries/opensk/src/ctap/mod.rs:MAX_CBOR_NESTING_DEPTH"]}
{"id": "C04", "title": "CBOR key order is the CTAP2 canonical order", "statement": "The comparison the library uses to sort and to check map keys is a strict total order on all values, and for keys the protocol uses (integers, byte strings, text strings) it is exactly the bytewise lexicographic order of their encodings.", "quantifier": "all pairs and triples of CBOR values", "why_tests_cant": "Totality, transitivity and agreement with the encoding order quantify over pairs and triples of an infinite type.", "anchors": ["libraries/cbor/src/values.rs:Ord for Value"]}
{"id": "C05", "title": "Map destructuring finds exactly the requested keys", "statement": "When a command parser pulls a list of strictly increasing keys out of a decoded map, each variable receives the value stored in the map under that key, or none if the key is absent, regardless of which other keys the map holds.", "quantifier": "all strictly sorted maps and all strictly sorted lists of wanted keys", "why_tests_cant": "Depends on the interleaving of present, absent and unknown keys for maps of every size.", "anchors": ["libraries/cbor/src/macros.rs:destructure_cbor_map_peek_value"]}
{"id": "C06", "title": "HID fragmentation round trip", "statement": "For every message whose payload is at most 7609 bytes, splitting it into HID packets and feeding these packets in order to an idle receiver yields exactly that message at the last packet and nothing before; every packet is 64 bytes; longer payloads are refused.", "quantifier": "all channel ids, commands and payloads of any length", "why_tests_cant": "Boundary lengths (57, 57+59k, 7609) and every content must work; tests sample lengths.", "anchors": ["libraries/opensk/src/ctap/hid/send.rs:HidPacketIterator", "libraries/opensk/src/ctap/hid/receive.rs:MessageAssembler"]}
{"id": "C07", "title": "HID messages are never mixed between channels", "statement": "For every sequence of packets and time stamps, a message delivered for a channel consists only of bytes from packets of that channel: one initial packet and the continuation packets 0,1,2,... of the same channel received after it; packets of other channels received meanwhile neither contribute bytes nor abort the transaction.", "quantifier": "all packet sequences of any length from any number of channels with arbitrary timing", "why_tests_cant": "The adversary is another process interleaving arbitrary packets; only a history quantifier settles this.", "anchors": ["libraries/opensk/src/ctap/hid/receive.rs:parse_packet", "libraries/opensk/src/ctap/hid/mod.rs:parse_packet"]}
{"id": "C08", "title": "Channel ids are unique and only allocated ids are served", "statement": "Fewer than 2^32-1 channels handed out by INIT on the broadcast channel in one power cycle are pairwise distinct, never 0 and never the broadcast id, and a command on a channel that was not handed out before never reaches the authenticator.", "quantifier": "all histories of messages", "why_tests_cant": "Depends on the full allocation history.", "anchors": ["libraries/opensk/src/ctap/hid/mod.rs:allocate_channel", "libraries/opensk/src/ctap/hid/mod.rs:process_init"]}
{"id": "C09", "title": "HID channel lock is exclusive and expires", "statement": "While one channel holds the lock, every message of any other channel on the same transport, and every packet of the other transport, is refused (never served, no state change on the locked transport); the lock ends at the latest after the requested number of seconds (at most 10) or when the owner releases it.", "quantifier": "all packet histories with arbitrary timing over both transports", "why_tests_cant": "Mutual exclusion over time is a property of all schedules.", "anchors": ["libraries/opensk/src/ctap/hid/mod.rs:process_lock", "libraries/opensk/src/lib.rs:process_hid_packet"]}
{"id": "C10", "title": "Global bound on PIN guesses", "statement": "Between two successful PIN verifications (or factory resets), the authenticator compares at most the configured number of retries (8) of guesses with the stored PIN, over every history of commands and over power cuts at any moment, including in the middle of a command.", "quantifier": "all command histories, all crash points", "why_tests_cant": "Brute force resistance is a statement about every attack strategy including power glitching between the storage operations.", "anchors": ["libraries/opensk/src/ctap/client_pin.rs:verify_pin_hash_enc", "libraries/opensk/src/ctap/storage.rs:decr_pin_retries"]}
{"id": "C11", "title": "Three wrong PINs require a power cycle", "statement": "Within one power cycle, after three consecutive failed PIN verifications no further guess is compared with the stored PIN, and the remaining retries do not decrease further, until the device is power cycled.", "quantifier": "all command histories within a power cycle", "why_tests_cant": "All attack strategies; the interesting ones use malformed ciphertexts.", "anchors": ["libraries/opensk/src/ctap/client_pin.rs:verify_pin_hash_enc"]}
{"id": "C12", "title": "A PIN token is issued only for the right PIN", "statement": "A response carrying a PIN/UV auth token is returned only if a PIN is set, retries remain, the decrypted PIN hash equals the stored one and no PIN change is forced; every issued token replaces all earlier tokens.", "quantifier": "all states and requests", "why_tests_cant": "Every path through the token subcommands and every state.", "anchors": ["libraries/opensk/src/ctap/client_pin.rs:process_get_pin_token"]}
{"id": "C13", "title": "Token rights are limited in time and use", "statement": "A request authenticated by a PIN/UV auth token is accepted only if the token was issued less than 30 s earlier in the same power cycle with the needed permission, and between issuing and use no registration or assertion with user presence consumed it (except large-blob writes).", "quantifier": "all command histories with arbitrary timing", "why_tests_cant": "Stale-authority bugs only show in particular histories.", "anchors": ["libraries/opensk/src/ctap/token_state.rs:PinUvAuthTokenState", "libraries/opensk/src/ctap/client_pin.rs:clear_token_flags"]}
{"id": "C14", "title": "Token rights are bound to one relying party", "statement": "Once a token has been issued for or first used with one relying party, registrations, assertions, credential deletions and updates authenticated by it succeed only for that relying party.", "quantifier": "all histories", "why_tests_cant": "Needs all sequences of token uses with different relying parties.", "anchors": ["libraries/opensk/src/ctap/client_pin.rs:ensure_rp_id_permission", "libraries/opensk/src/ctap/credential_management.rs:check_rp_id_permissions"]}
{"id": "C15", "title": "PIN policy", "statement": "In every reachable state a stored PIN is a valid UTF-8 string with at least the minimum number of code points that was in force when it was set and at most 63 bytes; a PIN can be set without knowing the old one only if none is set.", "quantifier": "all command histories", "why_tests_cant": "All byte strings as PIN and all histories.", "anchors": ["libraries/opensk/src/ctap/client_pin.rs:check_and_store_new_pin", "libraries/opensk/src/ctap/client_pin.rs:process_set_pin"]}
{"id": "C16", "title": "One touch authorises at most one U2F operation", "statement": "For every history of U2F requests, touches and time, each successful register or enforce-presence authenticate is matched with its own distinct earlier touch that happened at most 30 s before and while a request was waiting (at most 10 s after it was made); no touch is used twice.", "quantifier": "all event histories and timings", "why_tests_cant": "Counting argument over all histories.", "anchors": ["libraries/opensk/src/ctap/u2f_up.rs:U2fUserPresenceState", "libraries/opensk/src/ctap/ctap1.rs:process_command"]}
{"id": "C17", "title": "User presence byte in U2F assertions is truthful", "statement": "The user presence bit in a signed U2F assertion is set only if a touch was consumed for this request.", "quantifier": "all U2F authenticate requests and states", "why_tests_cant": "All control bytes and all states.", "anchors": ["libraries/opensk/src/ctap/ctap1.rs:process_authenticate", "libraries/opensk/src/ctap/ctap1.rs:process_command"]}
{"id": "C18", "title": "Factory reset only right after power-up", "statement": "A CTAP2 reset command takes effect only within 10 s after power-up, with user presence, and if since power-up only CTAP2 messages of a few harmless kinds (get info, selection, make credential, reset) were processed; all other outcomes leave the persistent state unchanged.", "quantifier": "all command histories, timings and channels", "why_tests_cant": "Malware tries any history of commands before reset.", "anchors": ["libraries/opensk/src/ctap/mod.rs:process_reset", "libraries/opensk/src/ctap/mod.rs:process_parsed_command", "libraries/opensk/src/ctap/mod.rs:StatefulPermission"]}
{"id": "C19", "title": "Factory reset erases all user data", "statement": "After a successful reset no credential, PIN, retry counter, policy, large blob or master key from before survives, while attestation data does; the storage keys of every user-data item lie outside the preserved range.", "quantifier": "all persistent states", "why_tests_cant": "Quantifies over every state of the store.", "anchors": ["libraries/opensk/src/ctap/storage.rs:reset", "libraries/opensk/src/ctap/storage/key.rs", "libraries/persistent_store/src/store.rs:clear"]}
{"id": "C20", "title": "User verified flag is truthful", "statement": "A registration or assertion response carries the user-verified flag only if the request carried a token authentication that verified under the current token, in use, with the permission for this operation and bound to this relying party.", "quantifier": "all requests and states", "why_tests_cant": "All paths through the two largest commands.", "anchors": ["libraries/opensk/src/ctap/mod.rs:process_make_credential", "libraries/opensk/src/ctap/mod.rs:process_get_assertion"]}
{"id": "C21", "title": "User present flag is truthful in CTAP2", "statement": "Every successful CTAP2 registration, and every assertion whose user-present flag is set, is preceded in the same command by a confirmed touch; an assertion requested without presence never has the flag.", "quantifier": "all requests and states", "why_tests_cant": "All paths.", "anchors": ["libraries/opensk/src/ctap/mod.rs:check_user_presence", "libraries/opensk/src/ctap/mod.rs:assertion_response"]}
{"id": "C22", "title": "Protected credentials stay hidden", "statement": "A credential with protection level 'user verification required' never appears in, or influences the success of, an assertion, exclude-list check or U2F request without user verification; one with level 'optional with credential id list' is never returned by a discoverable request without user verification.", "quantifier": "all credential sets and requests", "why_tests_cant": "All combinations of credentials, lists and flags.", "anchors": ["libraries/opensk/src/ctap/mod.rs:filter_listed_credential", "libraries/opensk/src/ctap/mod.rs:get_any_credential_from_allow_list"]}
{"id": "C23", "title": "Exclude list prevents double registration", "statement": "A registration whose exclude list names a credential of this authenticator for this relying party (visible under its protection policy) never creates a credential, and one that names none is not refused for this reason.", "quantifier": "all states, requests and exclude lists of any length", "why_tests_cant": "All lists and states.", "anchors": ["libraries/opensk/src/ctap/mod.rs:process_make_credential"]}
{"id": "C24", "title": "At most one discoverable credential per account, within capacity", "statement": "In every reachable state there are no two stored credentials with the same relying party and user handle, the number of stored credentials never exceeds the configured maximum, a registration for an existing account replaces the old credential even if the store is full, and otherwise a full store refuses without change.", "quantifier": "all command histories", "why_tests_cant": "An invariant over all histories.", "anchors": ["libraries/opensk/src/ctap/storage.rs:store_credential"]}
{"id": "C25", "title": "Assertion enumeration is complete, newest first", "statement": "For a discoverable request, the first response and the following getNextAssertion responses together return every matching credential exactly once in decreasing creation order, provided they come on the same channel within 30 s of the first request and with no other CTAP2 command in between; otherwise getNextAssertion fails.", "quantifier": "all credential sets, histories and timings", "why_tests_cant": "All sizes and interleavings.", "anchors": ["libraries/opensk/src/ctap/mod.rs:process_get_assertion", "libraries/opensk/src/ctap/mod.rs:next_assertion_credential"]}
{"id": "C26", "title": "Always-UV leaves no unverified path", "statement": "While always-UV is on, no U2F command succeeds, no registration succeeds without a verified token and no assertion with the user-present flag is produced without a verified token.", "quantifier": "all requests and states with always-UV on", "why_tests_cant": "All entry points.", "anchors": ["libraries/opensk/src/ctap/ctap1.rs:process_command", "libraries/opensk/src/ctap/mod.rs:process_make_credential", "libraries/opensk/src/ctap/mod.rs:process_get_assertion"]}
{"id": "C27", "title": "Signature counter increases", "statement": "Over all histories with power cuts the counters in responses never decrease (when the counter is in use and as long as it has not wrapped around 2^32 and no factory reset happened), and the counter of every CTAP2 assertion (first response of the command) and every U2F signature is strictly greater than the counter of every response before it.", "quantifier": "all histories and crash points", "why_tests_cant": "Clone detection relies on all histories, including power loss between increment and response.", "anchors": ["libraries/opensk/src/ctap/storage.rs:incr_global_signature_counter", "libraries/opensk/src/ctap/mod.rs:increment_global_signature_counter"]}
{"id": "C28", "title": "Minimum PIN length never decreases without reset", "statement": "Over every history without factory reset the minimum PIN length is non-decreasing, and raising it above the current PIN's length forces a PIN change before any new token is issued.", "quantifier": "all histories", "why_tests_cant": "History property.", "anchors": ["libraries/opensk/src/ctap/config_command.rs:process_set_min_pin_length", "libraries/opensk/src/ctap/storage.rs:set_min_pin_length"]}
{"id": "C29", "title": "A refused configuration command changes nothing", "statement": "If the set-minimum-PIN-length command returns an error then neither the minimum PIN length, nor the forced PIN change flag, nor the list of relying parties changed.", "quantifier": "all requests and states", "why_tests_cant": "All failure points of a multi-step update.", "anchors": ["libraries/opensk/src/ctap/config_command.rs:process_set_min_pin_length"]}
{"id": "C30", "title": "Credential management needs an authorised token", "statement": "Every credential management subcommand other than the two continuation commands returns data or changes the store only if authenticated by the current token with credential-management permission (and matching relying party where one credential or relying party is concerned); continuation commands only continue an authorised enumeration on the same channel.", "quantifier": "all histories", "why_tests_cant": "All histories of subcommands.", "anchors": ["libraries/opensk/src/ctap/credential_management.rs:process_credential_management"]}
{"id": "C31", "title": "Credential enumeration is exact", "statement": "Enumerating relying parties returns each relying party with at least one stored credential exactly once, with the announced total; enumerating credentials of a relying party returns each of its credentials exactly once.", "quantifier": "all credential sets", "why_tests_cant": "All sets.", "anchors": ["libraries/opensk/src/ctap/credential_management.rs:get_stored_rp_ids", "libraries/opensk/src/ctap/credential_management.rs:process_enumerate_credentials_begin"]}
{"id": "C32", "title": "The stored large blob array is always intact", "statement": "In every reachable state the stored large-blob array is the initial one or a byte string ending in the first 16 bytes of the SHA-256 of the rest, namely the concatenation of the fragments of one upload with contiguous offsets; failed or interrupted uploads leave the stored array unchanged.", "quantifier": "all histories of get/set fragments", "why_tests_cant": "All interleavings and fragment sizes.", "anchors": ["libraries/opensk/src/ctap/large_blobs.rs:process_command", "libraries/opensk/src/ctap/storage.rs:commit_large_blob_array"]}
{"id": "C33", "title": "Reading the large blob back in any fragments returns what was stored", "statement": "For every stored array and every sequence of reads with contiguous offsets, the concatenation of the returned fragments is the stored array.", "quantifier": "all arrays, all offsets and lengths", "why_tests_cant": "All fragmentations, including shard boundaries.", "anchors": ["libraries/opensk/src/ctap/storage.rs:get_large_blob_array", "libraries/persistent_store/src/fragment.rs:read_range"]}
{"id": "C34", "title": "A created non-resident credential can be used", "statement": "Every non-resident credential id produced by a registration is accepted by a later assertion for the same relying party and recovers the same private key, relying party, protection policy and credential blob.", "quantifier": "all credentials, keys, nonces", "why_tests_cant": "All contents including the largest credential blob and every padding length.", "anchors": ["libraries/opensk/src/api/key_store.rs:wrap_credential", "libraries/opensk/src/api/key_store.rs:unwrap_credential"]}
{"id": "C35", "title": "Credential ids cannot be forged or moved between relying parties", "statement": "A non-resident credential id is accepted only if its tag is the HMAC of its other bytes under the device key, and then only for the relying party whose hash is inside; any byte string of another length is not accepted.", "quantifier": "all byte strings and relying parties", "why_tests_cant": "All byte strings.", "anchors": ["libraries/opensk/src/api/key_store.rs:unwrap_credential"]}
{"id": "C36", "title": "CBC encryption round trip", "statement": "For every key, IV and plaintext whose length is a multiple of the block size, decrypting the CBC ciphertext gives back the plaintext; with an embedded IV the IV is recovered from the message; other lengths are refused.", "quantifier": "all keys, IVs and plaintexts of any length", "why_tests_cant": "All lengths and values.", "anchors": ["libraries/crypto/src/cbc.rs:cbc_encrypt", "libraries/opensk/src/ctap/crypto_wrapper.rs:aes256_cbc_decrypt"]}
{"id": "C37", "title": "SHA-256 is independent of chunking and equals FIPS 180-4", "statement": "Feeding a message to the streaming hash in any number of chunks of any lengths gives the digest of the FIPS 180-4 padding of the whole message.", "quantifier": "all messages and all ways to split them", "why_tests_cant": "All chunk boundaries relative to 64-byte blocks, all lengths.", "anchors": ["libraries/crypto/src/sha256.rs:update", "libraries/crypto/src/sha256.rs:finalize"]}
{"id": "C38", "title": "HMAC and HKDF follow their RFCs", "statement": "For every 32-byte key and every message, the HMAC equals RFC 2104, verification accepts exactly that value (or exactly its first 16 bytes), and the one-block HKDF with a given or the default salt equals RFC 5869.", "quantifier": "all keys and messages", "why_tests_cant": "All keys and all message lengths.", "anchors": ["libraries/crypto/src/hmac.rs", "libraries/crypto/src/hkdf.rs"]}
{"id": "C39", "title": "AES-256 decryption inverts encryption", "statement": "For every 256-bit key and every 128-bit block the software AES encryption is the FIPS 197 cipher and the software decryption of the encryption is the block.", "quantifier": "all keys and blocks", "why_tests_cant": "2^384 cases.", "anchors": ["libraries/crypto/src/aes256.rs"]}
{"id": "C40", "title": "P-256 big-integer and field arithmetic is exact", "statement": "Addition, subtraction, multiplication, Montgomery reduction, inversion and byte conversion of 256-bit integers and field elements compute the mathematical result modulo 2^256, the field prime or the group order, including all carries.", "quantifier": "all 256-bit operands", "why_tests_cant": "Carry bugs hit with probability 2^-32 or less.", "anchors": ["libraries/crypto/src/ec/int256.rs", "libraries/crypto/src/ec/montgomery.rs", "libraries/crypto/src/ec/gfp256.rs", "libraries/crypto/src/ec/exponent256.rs"]}
{"id": "C41", "title": "Interrupted word writes are detected", "statement": "If programming a flash word of the store is interrupted so that only a subset of the bits to clear is cleared, then reading the word gives the old state, the new state, or is recognised as invalid \u2014 never a different valid word.", "quantifier": "all words, all subsets of written bits", "why_tests_cant": "2^32 subsets per word and all parameter values.", "anchors": ["libraries/persistent_store/src/format.rs:WORD_CHECKSUM", "libraries/persistent_store/src/format/bitfield.rs:Checksum"]}
{"id": "C42", "title": "Store words decode to what was encoded", "statement": "Every page header and internal or user entry word of the store decodes to the parameters it was built from, and the kinds of words are pairwise distinguishable.", "quantifier": "all parameter values in range", "why_tests_cant": "All cycles, keys, lengths and flags.", "anchors": ["libraries/persistent_store/src/format.rs:build_user", "libraries/persistent_store/src/format.rs:parse_word"]}
{"id": "C43", "title": "Positions in the log are consistent", "statement": "Conversion between virtual log positions and (cycle, page, word) is a bijection preserving order, and distances computed from two positions equal the number of words between them.", "quantifier": "all formats and positions", "why_tests_cant": "All page counts and sizes.", "anchors": ["libraries/persistent_store/src/format.rs:Position"]}
{"id": "C44", "title": "The store behaves like a map", "statement": "For every history of transactions, inserts, removes, clears and prepare calls, reads return exactly what the abstract key-value map returns, failing operations leave the map unchanged, and operations fail only for the documented reasons (invalid argument, no capacity, no lifetime).", "quantifier": "all histories, all values, all flash geometries", "why_tests_cant": "All histories including every compaction pattern.", "anchors": ["libraries/persistent_store/src/store.rs:Store", "libraries/persistent_store/src/model.rs:StoreModel"]}
{"id": "C45", "title": "Store operations are atomic under power loss", "statement": "If power is lost at any point of any store operation, with any subset of the bits of the current flash operation applied, then after reopening the store its content is the one before or the one after the operation; this also holds if reopening is itself interrupted any number of times.", "quantifier": "all states, operations, crash points, bit subsets and repeated crashes", "why_tests_cant": "Crash points times bit subsets is astronomically large; existing fuzzers sample.", "anchors": ["libraries/persistent_store/src/store.rs:recover", "libraries/persistent_store/src/store.rs:transaction", "libraries/persistent_store/src/driver.rs"]}
{"id": "C46", "title": "Free capacity and lifetime are guaranteed", "statement": "If the remaining capacity covers a transaction and lifetime is left, the transaction succeeds: compaction always makes enough room and never overwrites live data.", "quantifier": "all histories, all geometries", "why_tests_cant": "The invariant is a global counting argument over all histories.", "anchors": ["libraries/persistent_store/src/store.rs:reserve", "libraries/persistent_store/src/lib.rs"]}
{"id": "C47", "title": "Fragmented values read back exactly", "statement": "A value written over several keys reads back whole, and every sub-range reads back as the corresponding slice; a shorter or longer rewrite never leaves remains of the old value; invalid fragment sets are reported, not returned.", "quantifier": "all values, key ranges and ranges", "why_tests_cant": "All lengths around multiples of the fragment size.", "anchors": ["libraries/persistent_store/src/fragment.rs"]}
{"id": "C48", "title": "Packed per-index values behave like a map", "statement": "The concatenated store of per-index values behaves like a partial map from index to value: read returns the last written value of this index, write and delete change no other index.", "quantifier": "all histories of reads, writes and deletes", "why_tests_cant": "All histories and contents.", "anchors": ["libraries/persistent_store/src/concat.rs"]}
{"id": "C49", "title": "Firmware partitions never overlap or escape", "statement": "Range bookkeeping for flash partitions has set semantics: containment, intersection, appending and page enumeration agree with sets of addresses, and translating a partition offset gives the address at that offset of the concatenated ranges or nothing.", "quantifier": "all ranges and partitions", "why_tests_cant": "All address arithmetic corner cases.", "anchors": ["src/env/tock/storage_helper.rs:ModRange", "src/env/tock/storage_helper.rs:Partition"]}
{"id": "C50", "title": "Bootloader starts only a valid image and prefers the newest", "statement": "The bootloader starts a partition only if its metadata address and hash match its contents; if both match it starts the one with the higher version; if none matches it does not start anything.", "quantifier": "all contents of the two partitions", "why_tests_cant": "All flash contents.", "anchors": ["bootloader/src/main.rs"]}
{"id": "C51", "title": "Firmware upgrades cannot roll back or bypass the signature", "statement": "Over every history of upgrade writes, the metadata page of the other partition only ever contains metadata that was accepted with a valid signature for the device's upgrade key, the right partition address and a version not lower than the running one, or what was there before the first request, or bytes that come from a flash operation cut off while such a metadata page was being written.", "quantifier": "all histories of upgrade commands", "why_tests_cant": "History property with attacker-controlled offsets and lengths.", "anchors": ["src/env/tock/storage.rs:write_bundle", "src/env/tock/upgrade_helper.rs:check_metadata"]}
{"id": "C52", "title": "Timers survive counter wrap-around", "statement": "With the 24-bit hardware counter read at least once per wrap period, timers fire never before and at the first check after their duration, for every elapsed time, across wrap-arounds.", "quantifier": "all sequences of clock reads", "why_tests_cant": "Wrap-around needs minutes to hours of run time.", "anchors": ["src/env/tock/clock.rs"]}
{"id": "C53", "title": "APDU and U2F request parsing accept only well-formed frames", "statement": "For every byte string the APDU and U2F parsers return a request whose data length equals the announced length, or an error; they never read outside the frame, and each accepted register/authenticate request has exactly the fields of the standard layout.", "quantifier": "all byte strings", "why_tests_cant": "All malformed frames.", "anchors": ["libraries/opensk/src/ctap/apdu.rs", "libraries/opensk/src/ctap/ctap1.rs:U2fCommand"]}
{"id": "C54", "title": "No message can crash the authenticator", "statement": "For every byte string received as a CTAP2 message the command processor returns a response.", "quantifier": "all byte strings including the empty one", "why_tests_cant": "All byte strings.", "anchors": ["libraries/opensk/src/ctap/mod.rs:process_command", "src/env/tock/commands.rs:process_cbor"]}
{"id": "C55", "title": "Stored strings are valid prefixes", "statement": "User name, display name and similar strings are stored as the longest prefix of at most 64 bytes that ends at a character boundary.", "quantifier": "all strings", "why_tests_cant": "All multi-byte boundaries.", "anchors": ["libraries/opensk/src/ctap/mod.rs:truncate_to_char_boundary"]}
{"id": "C56", "title": "PIN protocol data is authenticated before use", "statement": "New PINs, PIN changes and hmac-secret salts are used only if their authentication tag verifies under the shared secret of the current key agreement key; a wrong PIN invalidates the key agreement key of that protocol.", "quantifier": "all requests and states", "why_tests_cant": "All paths.", "anchors": ["libraries/opensk/src/ctap/pin_protocol.rs", "libraries/opensk/src/ctap/client_pin.rs"]}
{"id": "C57", "title": "The attestation is programmed at most once, by a touch", "statement": "The batch attestation key and certificate change only by a vendor configure message that carries them, while none is programmed and the user touches the device; once programmed they stay for the life of the device, also over factory resets and power losses.", "quantifier": "all sequences of messages, channels, power losses and storage failures", "why_tests_cant": "A sequence of messages that replaces the attestation after programming would let a host substitute the identity of the device; every message in every state must be excluded.", "anchors": ["src/env/tock/commands.rs", "libraries/opensk/src/api/attestation_store.rs", "libraries/opensk/src/ctap/mod.rs"]}
{"id": "C58", "title": "The device always starts, never an older firmware, never an unsigned one", "statement": "Over every life of the device made of upgrade requests with any parameters, flash failures at any moment, other storage activity and restarts, there is always an image the bootloader can start, and the version it starts never decreases. Without flash failures, whatever it starts either has the initial metadata or carries metadata accepted with a valid signature of the hash of its contents.", "quantifier": "all sequences of upgrade requests, flash failures, storage operations and restarts", "why_tests_cant": "A rollback or a brick may need a particular sequence of partial writes, interrupted at a particular byte, over several restarts.", "anchors": ["src/env/tock/storage.rs:write_bundle", "src/env/tock/storage.rs:check_metadata", "src/env/tock/commands.rs:process_vendor_upgrade", "bootloader/src/main.rs"]}
{"id": "C59", "title": "The flash of the device consists of separate pages outside the firmware", "statement": "The storage made of the locations of the kernel has numbered pages whose bytes have pairwise different addresses: reading gives the bytes of the slice, a write clears bits of exactly the bytes of the slice, an erase sets exactly the bytes of the page, everything out of bounds or unaligned is refused without effect, also failing operations change nothing outside of their slice or page, and on the boards no page lies in a firmware image.", "quantifier": "all locations, memory contents, pages, offsets, values and failures", "why_tests_cant": "A wrong translation of one page number into an address may overwrite the firmware or another page; every page, offset and length must be excluded.", "anchors": ["src/env/tock/storage.rs:TockStorage", "src/env/tock/storage_helper.rs:find_slice"]}
{"id": "C60", "title": "Points of P-256 are added and multiplied exactly", "statement": "The curve has exactly N points, a prime number, all multiples of the base point. The addition formulas give the sum of every two points, also of equal and opposite ones and with infinity; the multiple of the base point, the multiple of any point and the sum of two multiples have the coordinates that the group law gives, for all factors from 1 to N - 1.", "quantifier": "all points of the curve, all representations in projective coordinates, all factors", "why_tests_cant": "An exceptional case of an addition formula is met by one pair in 2^256; a wrong entry of a precomputed table by one factor in 16, but a wrong carry only for rare operands.", "anchors": ["libraries/crypto/src/ec/point.rs", "libraries/crypto/src/ec/precomputed.rs", "libraries/crypto/src/ec/montgomery.rs"]}
{"id": "C61", "title": "Signing is ECDSA", "statement": "Whatever the signing functions return, with random or deterministic per-message secrets, is a valid ECDSA signature (FIPS 186-4) of the message for the public key of the secret; one attempt with a given per-message secret returns exactly the signature of the standard or asks for another one exactly when the standard does.", "quantifier": "all secrets, messages, hash functions, random draws", "why_tests_cant": "Reduction and carry errors appear for rare secrets and hashes only.", "anchors": ["libraries/crypto/src/ecdsa.rs:SecKey::sign_rng", "libraries/crypto/src/ecdsa.rs:SecKey::sign_rfc6979", "libraries/crypto/src/ecdsa.rs:SecKey::try_sign"]}
{"id": "C62", "title": "Verification accepts exactly the ECDSA signatures", "statement": "For every public key, hash and pair of numbers from 1 to N - 1, verification accepts exactly if the pair is a signature of the hash in the sense of FIPS 186-4; in particular it accepts every signature the device makes.", "quantifier": "all public keys, hashes and signatures", "why_tests_cant": "Accepting one wrong signature, or rejecting one right signature in 2^256, is invisible to tests.", "anchors": ["libraries/crypto/src/ecdsa.rs:PubKey::verify_hash_vartime", "libraries/crypto/src/ec/point.rs:points_mul"]}
{"id": "C63", "title": "Key agreement agrees", "statement": "For every secret and every accepted public key the shared secret is the x coordinate of the multiple of the point, which is never infinity; two parties compute the same bytes from each other's public keys.", "quantifier": "all secrets and public keys", "why_tests_cant": "All pairs of keys.", "anchors": ["libraries/crypto/src/ecdh.rs:SecKey::exchange_x", "libraries/crypto/src/ecdh.rs:SecKey::exchange_raw"]}
{"id": "C64", "title": "Only points of the curve are accepted as public keys", "statement": "Coordinates, and encodings of 65 bytes, are accepted as a public key exactly if they are reduced coordinates of a point of the curve with x different from 0, in the encoding of SEC 1; the key is that point, and writing it gives back the bytes. The device accepts its own public keys unless x is 0.", "quantifier": "all coordinates and byte strings", "why_tests_cant": "Invalid points are all but a fraction of 2^-256 of the inputs and the exceptions are single values.", "anchors": ["libraries/crypto/src/ec/point.rs:new_checked_vartime", "libraries/crypto/src/ec/gfp256.rs:is_valid_point_vartime", "libraries/crypto/src/ecdh.rs:PubKey::from_coordinates", "libraries/crypto/src/ecdsa.rs:PubKey::from_bytes_uncompressed"]}
{"id": "C65", "title": "Encodings of secrets and signatures are exact", "statement": "32 bytes are accepted as a secret exactly if their number is from 1 to N - 1, 64 bytes as a signature exactly if both numbers are; writing and reading are inverse. The ASN.1 encoding of a signature is the distinguished encoding of its two numbers, at most 72 bytes, and determines them.", "quantifier": "all byte strings, secrets and signatures", "why_tests_cant": "The shortest encoding depends on leading zeros and the highest bit of each number.", "anchors": ["libraries/crypto/src/ecdsa.rs:Signature::to_asn1_der", "libraries/crypto/src/ecdsa.rs:Signature::from_bytes", "libraries/crypto/src/ecdsa.rs:SecKey::from_bytes", "libraries/crypto/src/ecdh.rs:SecKey::from_bytes", "libraries/crypto/src/ec/int256.rs:to_minimal_encoding"]}
{"id": "C66", "title": "Deterministic signatures are those of RFC 6979", "statement": "For every secret and message the deterministic signature is the one of RFC 6979 with SHA-256.", "quantifier": "all secrets and messages", "why_tests_cant": "The loop takes a second turn for one message in 2^32.", "anchors": ["libraries/crypto/src/ecdsa.rs:Rfc6979", "libraries/crypto/src/ecdsa.rs:SecKey::sign_rfc6979"]}
{"id": "C67", "title": "Generated secrets are uniform", "statement": "Generating a secret takes the first draw of 256 bits below N - 1 and adds one: the result is from 1 to N - 1, and every secret is given by exactly one draw.", "quantifier": "all sequences of random draws", "why_tests_cant": "A bias or an excluded secret is invisible to samples.", "anchors": ["libraries/crypto/src/ec/exponent256.rs:gen_uniform", "libraries/crypto/src/ecdsa.rs:SecKey::gensk", "libraries/crypto/src/ecdh.rs:SecKey::gensk"]}
{"id": "C68", "title": "Stored credentials stay until a request to remove them", "statement": "A discoverable credential is still stored, with the same id, key, relying party, user handle and protection, after every later history of commands, failures, power losses at any storage write and restarts, as long as no request was a reset, a deletion of its id or a new discoverable registration for the same relying party and user; its names change only on a request to update its id, and no credential appears without a registration. Until then an assertion request for its relying party that may see it is not refused for lack of credentials, and one that lists its id is signed with the registered key if it succeeds.", "quantifier": "all credentials, reachable states, histories of requests, power losses and restarts", "why_tests_cant": "The loss may be caused by any other request in any state: a full store, a deletion of a neighbour, a power loss during a registration.", "anchors": ["libraries/opensk/src/ctap/storage.rs:store_credential", "libraries/opensk/src/ctap/storage.rs:delete_credential", "libraries/opensk/src/ctap/storage.rs:update_credential", "libraries/opensk/src/ctap/credential_management.rs", "libraries/opensk/src/ctap/mod.rs:process_make_credential"]}
{"id": "C69", "title": "Every signature verifies under the public key the client was given", "statement": "With the cryptography of the firmware (SHA-256, ECDSA and key encoding over P-256): the answer to a registration contains the COSE encoding of a point of the curve, and its signature over authenticator data and client data hash verifies under this key, or, if it carries a certificate, under the key pair of the attestation store with exactly this certificate. Every later successful assertion that lists the id of the credential verifies under the public key of its registration: until a reset for credentials that are not discoverable, until a request to remove it for discoverable ones; signatures in an enumeration verify under the key credential management lists. The same holds for U2F registration and authentication in the byte layout of the standard.", "quantifier": "all registrations, later histories with failures and power losses, and assertions", "why_tests_cant": "It joins the key wrapping, the storage, the authenticator data, the encodings and the curve arithmetic over arbitrary histories; a mismatch may need rare keys or a rare order of requests.", "anchors": ["libraries/opensk/src/ctap/mod.rs:process_make_credential", "libraries/opensk/src/ctap/mod.rs:assertion_response", "libraries/opensk/src/ctap/ctap1.rs:process_register", "libraries/opensk/src/ctap/ctap1.rs:process_authenticate", "libraries/opensk/src/api/crypto/software_crypto.rs", "libraries/opensk/src/api/private_key.rs", "libraries/crypto/src/ecdsa.rs:SecKey::sign_rfc6979"]}
{"id": "C70", "title": "Behind USB, exactly the messages that were sent are executed and answered", "statement": "A packet changes the state of the commands only if it is the last packet of a message sent on this interface and channel, in order and without a pause of 100 ms, on a channel the device gave out on this interface since power-up; then exactly this message is executed, once, and the answer is sent in packets of 64 bytes on the same channel. Conversely, after power-up a client that asks for a channel gets one, and if it then sends the packets of a message in time, whatever others send in between, the last packet is answered with the result of this message (a ping with the same bytes) and the interface is ready again; the others get an error. The device winks for five seconds after an answered WINK or until the next answer. A running command is cancelled exactly by a CANCEL packet of its own channel and interface. So every property of the commands holds for all histories of packets.", "quantifier": "all histories of packets on both interfaces, times, clients and environments; all messages", "why_tests_cant": "It quantifies over all interleavings of packets of several clients on two interfaces and over all messages.", "anchors": ["libraries/opensk/src/lib.rs:Ctap::process_hid_packet", "libraries/opensk/src/ctap/main_hid.rs:MainHid::process_message", "libraries/opensk/src/ctap/vendor_hid.rs:VendorHid::process_message", "libraries/opensk/src/ctap/hid/mod.rs", "libraries/opensk/src/ctap/mod.rs:send_keepalive_up_needed"]}
{"id": "C71", "title": "A registered credential answers every honest login", "statement": "If the power stays on, the store works and the user touches the device within 30 seconds of each prompt, then a login that needs no token or comes with the right tag of a valid token is answered with success: with a list of ids, by the first one that names a visible credential of this relying party, signed by the private key of that credential; without a list, by the newest visible credential stored for the relying party. In particular, from the registration on, every such login with the id that the registration returned is answered with a signature by the private key whose public key it returned: until a reset for credentials that are not discoverable, until a request to remove it for discoverable ones, whatever happens in between. hmac-secret inputs as an honest platform computes them are answered too.", "quantifier": "all reachable states, registrations, later histories with failures and power losses, honest requests and touching users", "why_tests_cant": "Success is an absence of every possible error in every state; a refusal may need a rare state or history.", "anchors": ["libraries/opensk/src/ctap/mod.rs:process_get_assertion", "libraries/opensk/src/ctap/mod.rs:get_any_credential_from_allow_list", "libraries/opensk/src/ctap/mod.rs:assertion_response", "libraries/opensk/src/ctap/mod.rs:check_user_presence", "libraries/opensk/src/ctap/storage.rs:find_credential", "libraries/opensk/src/api/key_store.rs:unwrap_credential", "libraries/opensk/src/ctap/client_pin.rs:process_hmac_secret"]}
{"id": "C72", "title": "The right PIN works, and stays", "statement": "If the power stays on and the store works, then an honest platform that knows the PIN is never refused. A PIN without zero bytes, of at most 63 bytes and at least the minimum number of characters, can be set on a device without PIN, and the old PIN can be changed to it as long as attempts are left. A request for a token with the right PIN and any permissions is answered with a ciphertext that the platform decrypts to the token of the device, and restores all attempts; for 30 seconds the token entitles to requests with these permissions for its relying party, so that a login within that time is answered. The PIN stays accepted through all other requests, failures, power losses and restarts, until a request that concerns the PIN or a reset.", "quantifier": "all reachable states, PINs, platform keys, both PIN protocols, histories with failures and power losses", "why_tests_cant": "Success is an absence of every possible error in every state; a PIN lost in a rare state locks the user out, with the reset as the only way back.", "anchors": ["libraries/opensk/src/ctap/client_pin.rs:process_set_pin", "libraries/opensk/src/ctap/client_pin.rs:process_change_pin", "libraries/opensk/src/ctap/client_pin.rs:process_get_pin_token", "libraries/opensk/src/ctap/client_pin.rs:process_get_pin_uv_auth_token_using_pin_with_permissions", "libraries/opensk/src/ctap/client_pin.rs:check_and_store_new_pin", "libraries/opensk/src/ctap/client_pin.rs:verify_pin_hash_enc", "libraries/opensk/src/ctap/token_state.rs:PinUvAuthTokenState"]}
{"id": "C73", "title": "Honest registrations are answered, and what they return works for logins", "statement": "If the power stays on, the store works and the user touches the device, then an honest registration is answered with success: it offers ES256, carries a valid token if one is needed, does not exclude a visible credential of the device for that relying party, and, for a discoverable credential, finds room or replaces the credential of the same account. Exclude lists with unknown ids or ids of credentials for other relying parties do not stop it. From then on, whatever happens (inputs, failures, power losses), until a reset or, for a discoverable credential, a request to remove it, every honest login that names the returned credential is answered with a signature by the private key of the returned public key.", "quantifier": "all reachable states, registration requests, exclude lists, later histories with failures and power losses, login requests", "why_tests_cant": "The claim joins the absence of every error in every state to arbitrary histories between registration and login; a test sees one state, one list and one short history.", "anchors": ["libraries/opensk/src/ctap/mod.rs:process_make_credential", "libraries/opensk/src/ctap/storage.rs:store_credential", "libraries/opensk/src/ctap/mod.rs:process_get_assertion", "libraries/opensk/src/api/key_store.rs:wrap_credential"]}
{"id": "C74", "title": "Every answer is a well-formed message, and no failure looks like a success", "statement": "Every answer to a CTAP2 message is either the status byte of an error and nothing else, or the status byte of success, possibly followed by a map in canonical CBOR that is nested at most four levels deep and whose texts are UTF-8. The first byte is that of success exactly if the message was a command and the command succeeded. After a success the client's decoder accepts the rest and returns exactly the data of the response.", "quantifier": "all reachable states, all messages on all channels, all failures and users", "why_tests_cant": "Answers carry stored data and numbers from arbitrary histories (names of users, counters, minimum lengths, numbers of credentials); one text cut in the middle of a character or one error mapped to success makes an answer undecodable or wrong.", "anchors": ["libraries/opensk/src/ctap/mod.rs:process_command", "libraries/opensk/src/ctap/response.rs", "libraries/opensk/src/ctap/status_code.rs", "libraries/opensk/src/ctap/data_formats.rs", "libraries/cbor/src/writer.rs:write", "libraries/opensk/src/ctap/mod.rs:truncate_to_char_boundary"]}
{"id": "C75", "title": "GetInfo tells the truth about what the device will do", "statement": "GetInfo is answered on every channel and changes nothing. As long as no setting and no stored credential changes afterwards, later commands agree with the bytes of the answer: PIN commands are accepted only with an announced protocol, setting a PIN only if clientPin was announced as false, changing it and issuing tokens only if it was announced as true, tokens only if forcePINChange was announced as false, and a new PIN has at least minPINLength characters. If alwaysUv was announced as true, no registration, no confirmed assertion and no U2F request is answered without user verification, and U2F_V2 is announced exactly otherwise. If remainingDiscoverableCredentials is 0, a discoverable registration can only replace an account; if it is positive, an honest registration is answered when no PIN is set and makeCredUvNotRqd is announced. Accepted large blobs, fragments, lists of relying parties and minimum PIN lengths respect the announced limits; enterprise attestation is accepted only if ep was announced as true.", "quantifier": "all reachable states, all messages and answers, all later states with the same settings, all failures and users", "why_tests_cant": "Clients decide from this answer which requests to send; it is computed separately from the checks in the commands, and both depend on the whole history of settings. A test compares single answers with expected bytes, not with the behaviour of all later commands.", "anchors": ["libraries/opensk/src/ctap/mod.rs:process_get_info", "libraries/opensk/src/ctap/response.rs:AuthenticatorGetInfoResponse", "libraries/opensk/src/ctap/storage.rs", "libraries/opensk/src/ctap/client_pin.rs:process_command", "libraries/opensk/src/ctap/config_command.rs", "libraries/opensk/src/ctap/large_blobs.rs"]}
{"id": "C76", "title": "Stored data survives its encoding in flash", "statement": "The data that the commands store (credentials, PIN, attempts, counter, minimum length and its relying parties, large blobs, attestation, flags, master keys) is kept in the entries of the flash store so that every storage function, working on the bytes of the entries, returns and leaves exactly what it would on the plain data, for every history of calls with power lost at any interaction with the flash, also while the store is opened again: after such a loss the store holds what the call had made up to some point. No stored entry is ever unreadable: reading never fails and gives the data, and no call panics.", "quantifier": "all supported flash geometries, histories of storage calls with arguments of their types, bit patterns of interrupted writes, random draws", "why_tests_cant": "The encodings must be inverse for all values (every optional field of a credential, every length), in every state of the log, at every point where power may be lost.", "anchors": ["libraries/opensk/src/ctap/storage.rs", "libraries/opensk/src/ctap/storage/key.rs", "libraries/opensk/src/ctap/data_formats.rs:PublicKeyCredentialSource", "libraries/opensk/src/api/key_store.rs:get_master_keys", "libraries/opensk/src/api/attestation_store.rs", "libraries/opensk/src/api/private_key.rs:to_cbor"]}
{"id": "C77", "title": "Requests in the format of the specification are understood", "statement": "Every CTAP2 request whose CBOR map follows the format of the specification (which field stands for which parameter, which are required, what an absent one stands for) is understood as exactly what it says. No request has two meanings. Every combination of parameters of every command can be expressed. Fields that the format does not know, and whether a default is left out or written, have no effect on the answer or on the state.", "quantifier": "all messages, commands, parameters, states and environments", "why_tests_cant": "The messages that say the same are infinitely many: unknown fields, defaults, order and contents of nested maps and lists.", "anchors": ["libraries/opensk/src/ctap/command.rs:Command::deserialize", "libraries/opensk/src/ctap/data_formats.rs", "libraries/cbor/src/macros.rs:destructure_cbor_map"]}
{"id": "C78", "title": "Nothing but well-formed requests is accepted", "statement": "A CTAP2 message is understood only if it says a command in the format of the specification: all required fields are there, all known fields are of their types and in their ranges, and the combination of fields is allowed. Every other message is answered with a single error byte and changes nothing. What is understood has parameters that fit their types.", "quantifier": "all messages, states and environments", "why_tests_cant": "The claim is about all byte strings that are not well-formed requests.", "anchors": ["libraries/opensk/src/ctap/command.rs:Command::deserialize", "libraries/opensk/src/ctap/data_formats.rs", "libraries/opensk/src/ctap/mod.rs:process_command"]}
{"id": "C79", "title": "Answers say what the specification says", "statement": "The answer to every command that succeeded is the status byte of success and, if there is data, a CBOR map with exactly the fields that the specification gives to this response, each under its number and in its type; so the client can recover the response, and no answer has two meanings.", "quantifier": "all reachable states, all messages and responses", "why_tests_cant": "The answers carry data of arbitrary histories; a field under a wrong number or missing for one combination of options is seen only with that combination.", "anchors": ["libraries/opensk/src/ctap/response.rs", "libraries/opensk/src/ctap/mod.rs:process_command", "libraries/opensk/src/ctap/data_formats.rs"]}
{"id": "C80", "title": "Authenticator data says what was asked for and what happened", "statement": "The signed bytes of a registration are: the hash of the relying party, the flags for presence and verification exactly as requested and verified, the counter, the device's identifier, the credential id with its length, the public key of the new credential in COSE format, and the outputs of exactly the extensions of the request (protection, blob accepted, minimum PIN length for entitled relying parties, hmac-secret). Those of an assertion are the same without credential, with the stored blob and the encrypted secrets; user names are shown only after verification and the account only for stored credentials. The bytes have only one meaning.", "quantifier": "all reachable states, requests, combinations of extensions and options, environments", "why_tests_cant": "Relying parties base their decisions on these bytes; flags and extensions depend on combinations of options, settings and verification that tests sample.", "anchors": ["libraries/opensk/src/ctap/mod.rs:process_make_credential", "libraries/opensk/src/ctap/mod.rs:generate_auth_data", "libraries/opensk/src/ctap/mod.rs:assertion_response", "libraries/opensk/src/ctap/client_pin.rs:process_hmac_secret", "libraries/opensk/src/ctap/data_formats.rs:MakeCredentialExtensions"]}
{"id": "C81", "title": "What extensions registered, later logins return", "statement": "From the registration on, whatever happens (requests, failures, power losses, restarts), every login that is answered with the id of the credential returns, if asked for, exactly the blob of the registration, the large blob key that the registration returned, and for each salt a secret that depends only on the credential, the master key of the device, the salt and whether the user was verified: until a reset for credentials that are in their id, until a request to remove it for stored ones.", "quantifier": "all registrations, later histories with failures and power losses, logins, salts, both PIN protocols", "why_tests_cant": "Clients encrypt data with these secrets; a change after some rare history loses the data for ever.", "anchors": ["libraries/opensk/src/ctap/mod.rs:process_make_credential", "libraries/opensk/src/ctap/mod.rs:assertion_response", "libraries/opensk/src/ctap/client_pin.rs:process_hmac_secret", "libraries/opensk/src/api/key_store.rs:cred_random", "libraries/opensk/src/ctap/storage.rs:store_credential"]}
{"id": "C82", "title": "Certificates that identify the device are sent only when allowed", "statement": "A registration is answered with a certificate only if the device is configured for batch attestation, or if the request asked for enterprise attestation, enterprise attestation is switched on, and the request is one the configuration allows (platform-managed, or a listed relying party); the answer says so exactly in the latter case, and the certificate is the one of the attestation store. A request for it that is unknown, or while it is off, is refused. It is off in a new device and after a reset, and switched on only by a request to do so, which needs a valid token with the right to configure if a PIN is set or verification always required.", "quantifier": "all states, histories, requests and configurations", "why_tests_cant": "Being identified is a privacy loss; the claim is about every history in which it should not happen.", "anchors": ["libraries/opensk/src/ctap/mod.rs:process_make_credential", "libraries/opensk/src/ctap/config_command.rs:process_enable_enterprise_attestation", "libraries/opensk/src/ctap/storage.rs:enterprise_attestation", "libraries/opensk/src/api/customization.rs"]}
{"id": "C83", "title": "From the bytes of a registration to the bytes of later logins", "statement": "With the cryptography of the firmware (SHA-256, ECDSA on P-256, AES-CBC, HMAC): if the answer to a message that says a registration in the tables of CTAP begins with the status of success, a relying party reads in its bytes exactly one credential id and public key, for its own name, with the flags that were asked for, and with a signature that verifies by FIPS 186-4. After that, whatever happens (requests of any client, failures, power losses), until the credential is removed by a request that is meant to do so, every successful answer to a message that says a login with this id carries a signature over its authenticator data and the client data that verifies with this public key. The same holds for the packets over USB, while other clients send packets in between.", "quantifier": "all reachable states, message bytes, environments, histories between the two messages, and interleavings of packets", "why_tests_cant": "The claim joins parsing, storage, key wrapping, elliptic curve arithmetic, encoding and packets; a test joins them for single keys and short histories.", "anchors": ["libraries/opensk/src/ctap/mod.rs:process_command", "libraries/opensk/src/ctap/mod.rs:process_make_credential", "libraries/opensk/src/ctap/mod.rs:process_get_assertion", "libraries/opensk/src/ctap/crypto_wrapper.rs:PrivateKey", "libraries/opensk/src/api/crypto/software_crypto.rs", "libraries/opensk/src/ctap/response.rs", "libraries/opensk/src/ctap/hid/mod.rs"]}
{"id": "C84", "title": "The main loop serves packets in turn and delivers each answer", "statement": "Whatever clients, kernel and user do: a packet is taken only when nothing is left to send; its answer is sent to the interface it came from, in order and complete, and nothing else is sent in between, unless the client does not take a packet in time, in which case that packet and the rest of this answer are given up and the next packet is served as usual. Nothing is sent unasked. Each packet and each touch reaches the commands once, in order. The LEDs wink when asked to, blink while U2F waits for a touch, and are dark otherwise. While a command waits for a touch the client gets KEEPALIVE packets on its channel.", "quantifier": "all histories of iterations: packets on both interfaces at any time, clients that stop reading, buttons, delays", "why_tests_cant": "Interleavings of two interfaces, slow clients and touches are not enumerable; tests of the loop need the hardware.", "anchors": ["src/main.rs:main", "src/main.rs:EndpointReplies", "libraries/opensk/src/ctap/hid/send.rs:HidPacketIterator", "libraries/opensk/src/ctap/hid/mod.rs:keepalive", "libraries/opensk/src/lib.rs:process_hid_packet"]}
{"id": "C85", "title": "User presence is a button that is pressed while the device waits", "statement": "The wait for the user reports presence exactly if a button is pressed before the time is up, a timeout exactly if the time is up first (or there is no time to wait), and never takes the device down while the drivers work.", "quantifier": "all sequences of button, timer and other upcalls, all answers of the kernel", "why_tests_cant": "The outcome depends on the order in which asynchronous events arrive; races cannot be provoked reliably.", "anchors": ["src/env/tock/mod.rs:wait_with_timeout", "third_party/libtock-drivers/src/util.rs:yieldk_for", "third_party/libtock-drivers/src/timer.rs:stop_alarm"]}
{"id": "C86", "title": "A storage can be used as one array of bytes", "statement": "On any storage, writing and erasing ranges of any place and size succeeds exactly if the range is inside the storage. Afterwards every byte reads as what was last written there, or as 0xff if it was erased since; bytes outside the range do not change. The rules of the flash are never broken: no cleared bit is set, every write is of whole words, and no word is written more often than the storage allows before its page is erased.", "quantifier": "all word and page sizes, numbers of pages, histories of writes and erasures, offsets and values", "why_tests_cant": "The pieces written depend on where the range starts and ends within words and pages and on what was there before; tests use one small storage with the rules of the flash turned off.", "anchors": ["libraries/persistent_store/src/linear.rs:Linear", "libraries/persistent_store/src/buffer.rs:write_slice", "libraries/persistent_store/src/buffer.rs:erase_page", "libraries/persistent_store/src/storage.rs:range"]}
{"id": "C87", "title": "An honest U2F client is served", "statement": "If the power stays on and the store works, then a U2F registration by a user who touches the device when asked (less than 10 seconds after the request, and less than 30 seconds before the answer) succeeds on a device with an attestation key, with an answer in the layout of the standard whose signature verifies under the attestation key. As long as the device is not reset, an authentication with the key handle for the same application is then served, whatever happened in between: with a touch, or without one if the client does not ask for it, it succeeds with a signature that verifies under the public key of the registration; a client that only asks whether the handle is known is told so. This holds for the packets that a client sends and receives over USB.", "quantifier": "all histories, challenges, applications, packets of other clients in between, times, power losses between registration and authentication", "why_tests_cant": "Tests run one registration and one authentication on a fresh device with a user who touches at once.", "anchors": ["libraries/opensk/src/ctap/ctap1.rs:process_command", "libraries/opensk/src/ctap/ctap1.rs:process_register", "libraries/opensk/src/ctap/ctap1.rs:process_authenticate", "libraries/opensk/src/ctap/u2f_up.rs:U2fUserPresenceState"]}
{"id": "C88", "title": "Clients learn nothing about credentials that are hidden from them", "statement": "Take two devices that are the same except for some credentials. A client whose requests do not ask about these credentials gets the same answers from both, through any history of requests, touches and power losses: a client that speaks for one relying party cannot find out whether the user has accounts with others; a client without user verification cannot find out whether there are credentials that require it, even if it knows their ids, nor, if it sends no ids, whether there are credentials that must be named. The only exception is the number of free slots, which the device tells everyone who asks for information about it. Credential management, and registrations of discoverable credentials (which fail when there is no room), are left out.", "quantifier": "all pairs of devices, sets of hidden credentials, requests, histories, environments (including store failures and power losses)", "why_tests_cant": "The property compares two devices for all sequences of requests; a test compares the answers to a few requests.", "anchors": ["libraries/opensk/src/ctap/mod.rs:process_get_assertion", "libraries/opensk/src/ctap/mod.rs:process_make_credential", "libraries/opensk/src/ctap/storage.rs:find_credential", "libraries/opensk/src/ctap/data_formats.rs:is_discoverable"]}
{"id": "C89", "title": "The device tells nothing about the PIN except whether a guess is right", "statement": "Take two devices that are the same except for the PIN (both PINs have the same number of code points). Whatever clients send to them, in whatever order and on whatever channel, with whatever store failures and power losses, all answers are the same, as long as no client guesses the PIN of one of them: as long as no command carries an encryption, under the agreed secret, of the hash of that PIN. So the answers, error codes, counters and delays depend on the PIN only through comparisons of complete guesses, no matter how close a guess is.", "quantifier": "all pairs of PINs and devices, all inputs and histories, all environments (including store failures and power losses)", "why_tests_cant": "The property compares two devices for all sequences of requests, and must exclude any other dependence of any answer on the PIN; a test compares the answers to a few requests.", "anchors": ["libraries/opensk/src/ctap/client_pin.rs:verify_pin_hash_enc", "libraries/opensk/src/ctap/storage.rs:pin_hash", "libraries/opensk/src/ctap/mod.rs:process_command", "libraries/opensk/src/ctap/config_command.rs:process_set_min_pin_length"]}
{"id": "C90", "title": "A signed upgrade that is sent in pieces is accepted, installed and started", "statement": "The vendor's tool sends the metadata page and then the firmware in pieces of any sizes, in order. If the page is signed for the partition that does not run, contains the hash of the firmware and a version that is not lower than the running one, and no operation of the flash fails, then every command succeeds, whatever the partition contained before (also after upgrades that were cut off). Afterwards the partition contains exactly the page and the firmware, nothing else changed, the bootloader considers it valid, and starts it if its version is higher than the running one, or equal and it is partition A.", "quantifier": "all releases, all ways to cut the firmware into pieces, all contents of the memory, all earlier requests (completed, failed or cut off), both partitions", "why_tests_cant": "Pieces may start and end anywhere in a page, and pages are erased as a side effect of writing the piece that contains their start; a test uses one size of pieces and an empty partition.", "anchors": ["src/env/tock/storage.rs:write_bundle", "src/env/tock/storage.rs:check_partition_hash", "src/env/tock/storage_helper.rs:find_address", "src/env/tock/storage_helper.rs:aligned_iter", "src/env/tock/commands.rs:process_vendor_upgrade", "bootloader/src/main.rs:main"]}
{"id": "C91", "title": "Only firmware that is signed according to the standards is started, and such firmware is accepted", "statement": "The public key of the vendor is a point of P-256. A release with an ECDSA signature of the SHA-256 of its contents (FIPS 186-4, FIPS 180-4) for this key is accepted, installed and started as in C90. Conversely, over every life of the device in which no operation of the flash fails, whatever the bootloader starts has the metadata that were there initially, or carries such a signature of exactly the contents that are started, with the address of its partition.", "quantifier": "all public keys, releases, ways to cut them into pieces, memories and lives of the device with upgrades and restarts", "why_tests_cant": "The property is about all signatures, not the ones a test has at hand: each wrongly accepted one would be a way to install foreign firmware.", "anchors": ["src/env/tock/upgrade_helper.rs:verify_signature", "src/env/tock/upgrade_helper.rs:check_metadata", "libraries/opensk/src/api/crypto/software_crypto.rs:verify_prehash", "libraries/crypto/src/ecdsa.rs:verify_hash_vartime", "bootloader/src/main.rs:read_version"]}
{"id": "C92", "title": "The bootloader computes SHA-256 of the firmware, piece by piece", "statement": "Updating the hash with any pieces of whole blocks of 64 bytes and then with a last piece of any length gives the SHA-256 (FIPS 180-4) of all the bytes in order. So the hash that the bootloader compares with the metadata of a partition is the SHA-256 of the signed part of the metadata followed by the firmware.", "quantifier": "all numbers and lengths of pieces and their bytes, all memories, both partitions", "why_tests_cant": "The result depends on how a message is cut into pieces and on a state that is saved and restored between them; it needs the hardware to test it, and only some lengths can be tried.", "anchors": ["bootloader/src/crypto_cell.rs:update", "bootloader/src/crypto_cell.rs:finalize_and_clear", "bootloader/src/main.rs:compute_upgrade_hash"]}
{"id": "C93", "title": "The USB driver of the kernel loses, repeats and reorders no packets", "statement": "On each of the two USB interfaces, the application receives the packets that the host sends, all of them, in their order and once; at most the last one still waits in the kernel. An application that waits gets the next packet at once; packets that came earlier are handed over when it asks, from the two interfaces in turn. What goes to the host are packets that the application sent with success, in their order and each at most once; a packet that is not cancelled goes to the host when it asks, and the application is told when the host has it. The kernel does not panic.", "quantifier": "all sequences of system calls of the application (transmit, receive, transmit-or-receive, cancel) and of events of the USB controller on both interfaces", "why_tests_cant": "System calls and events of the controller interleave in any order, and the driver keeps flags for each interface and for the application that must agree; the kernel patch has no tests.", "anchors": ["patches/tock/03-add-ctap-modules.patch:send_packet_to_client", "patches/tock/03-add-ctap-modules.patch:receive_packet", "patches/tock/03-add-ctap-modules.patch:transmit_packet", "patches/tock/03-add-ctap-modules.patch:cancel_transaction", "patches/tock/03-add-ctap-modules.patch:packet_transmitted"]}
{"id": "C94", "title": "The application gets every packet of the host, also when it stops waiting", "statement": "Through any sequence of calls of the USB driver of the application (receive, send, send or receive, each with a timeout), the packets that the calls return are those that the host sent on each interface, all of them, in their order and once; at most the last one still waits in the kernel. If a call says that it sent its packet, then the packet went to the host, and a call whose packet the host takes says so. A call that receives never says that it sent a packet and vice versa, and no call makes the kernel panic.", "quantifier": "all sequences of calls, timeouts, and interleavings of the steps of a call (share the buffer, start the command, wait, unregister, revoke the buffer, cancel) with events of the USB controller", "why_tests_cant": "The kernel acts between any two system calls of the driver; a test would have to hit the microseconds between the end of a timer and the command that cancels.", "anchors": ["third_party/libtock-drivers/src/usb_ctap_hid.rs:recv_with_timeout_detail", "third_party/libtock-drivers/src/usb_ctap_hid.rs:send_detail", "third_party/libtock-drivers/src/usb_ctap_hid.rs:send_or_recv_with_timeout_detail"]}
{"id": "C95", "title": "A client can cancel a request that waits for a touch, and nobody else can", "statement": "While a command waits for a touch, the device gets the packets that the host sends on the interface of the command, whether they come while it looks at the button or while it sends a KEEPALIVE, and stops at the first CANCEL of the channel of the command: if it was canceled, there was such a packet; as long as it goes on, there was none, except that the last packet may still wait in the kernel, and then it cancels the command in the next round. Other packets, other channels and the other interface do not end the wait. In a round without packets of the host, it is sent one KEEPALIVE on the interface and channel of the command; if it does not take it, the message is taken back and the wait goes on.", "quantifier": "all histories of calls, events of the USB controller during and between them, channels, and numbers of rounds", "why_tests_cant": "The CANCEL can come at any point of two drivers and a loop; tests of the command logic use a connection that never receives anything.", "anchors": ["libraries/opensk/src/ctap/mod.rs:check_user_presence", "libraries/opensk/src/ctap/mod.rs:send_keepalive_up_needed", "src/env/tock/mod.rs:send_and_maybe_recv", "third_party/libtock-drivers/src/usb_ctap_hid.rs:send_or_recv_with_timeout_detail"]}
{"id": "C96", "title": "Flash writes of the application succeed, do what they say, and stay in the storage", "statement": "From boot, every sequence of writes and erases of the application that are aligned, not longer than a page and inside the storage succeeds, and each gets its answer. A write clears exactly the bits that are zero in the given bytes, and writes each word once if this changes it and not at all otherwise; repeating an interrupted write leaves the flash, and the number of writes of each word, as if it had not been interrupted. An erase sets all bits of one page. A request that fails changes nothing. No request changes anything outside the storage. The writes and erases of the storage layer (C59) on the board are always such requests, and have the effect that C59 promises. So are those of an upgrade in aligned pieces of at most a page, and it installs the firmware as in C90.", "quantifier": "all contents of the flash, states of the driver, and sequences of requests of the application", "why_tests_cant": "The driver is in a patch to the kernel without tests; flags that are set in one request decide about all later ones, and the promise about repeated writes is about every point of interruption.", "anchors": ["patches/tock/06-persistent-storage.patch:write_slice", "patches/tock/06-persistent-storage.patch:erase_page", "patches/tock/06-persistent-storage.patch:is_write_needed", "patches/tock/06-persistent-storage.patch:fits_in_storage_location", "boards/nordic/nrf52840dk_opensk/src/main.rs:filter_syscall", "third_party/libtock-drivers/src/storage.rs:block_command"]}
