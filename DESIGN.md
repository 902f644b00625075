# Formal model of OpenSK in Lean 4

## Layout

* `properties.jsonl`: the properties (written by `scripts/props.py`).
* `MANIFEST.json`: for each property its status and theorems (written by `scripts/manifest.py`).
* `AXIOMS.md`: for each of these theorems the axioms it depends on (`scripts/axioms.sh`, `scripts/axioms_table.py`).
* `COVERAGE.md`: for each source file the functions that the model cites and those it does not (`scripts/coverage.py`).
* `lean/Verif/<Area>/`: the model (`Model`, `*Model`, or the name of the source file), small specifications (`Spec*`, `*Spec`),
  helper lemmas (`*Lemmas*` and the like) and the theorems of the properties (`Props*`), each with an `example` that meets its
  hypotheses.
* `seeded/`: wrong programs. `LOG.jsonl` has one line per edit with the theorems that stopped to prove; `list*.py` are the
  edits, `mutate.py` applies them in a scratch copy.

| Area | Source |
|------|--------|
| `Cbor` | `libraries/cbor` |
| `Crypto` | `libraries/crypto/src/{sha256,hmac,hkdf,aes256,cbc}.rs` |
| `P256` | `libraries/crypto/src/{ec/*,ecdsa,ecdh}.rs` |
| `Hid` | `libraries/opensk/src/ctap/hid`, packet dispatch of `libraries/opensk/src/lib.rs` |
| `Usb` | `libraries/opensk/src/lib.rs`, `ctap/{main_hid,vendor_hid}.rs`, CANCEL in `ctap/mod.rs`: `Hid` and `Ctap` together; the USB drivers of `patches/tock/03-add-ctap-modules.patch` (C93) and `third_party/libtock-drivers` (C94) |
| `Ctap` | the rest of `libraries/opensk/src/ctap`, `api/{key_store,attestation_store,private_key}.rs`, `src/env/tock/commands.rs` |
| `Device` | `Ctap` with the cryptography of `Crypto` and `P256` (`api/crypto/software_crypto.rs`) |
| `Store` | `libraries/persistent_store` |
| `Disk` | `ctap/storage.rs` again, on the entries of `Store` with their bytes |
| `Tock` | `src/env/tock/{storage,clock,mod}.rs`, `storage_helper.rs`, `upgrade_helper.rs`, `bootloader`, `libtock-drivers` storage |

## Trusted base

* The kernel of Lean 4.33.0 and the definitions of Mathlib that statements mention (`ZMod`, `WeierstrassCurve`, `Nat.Prime`).
* Axioms: at most `propext`, `Classical.choice`, `Quot.sound`; `AXIOMS.md` lists them per theorem. There is no `sorry`, `admit`,
  `axiom`, `native_decide`, `bv_decide`, `implemented_by` or `unsafe` in the sources.
* That the definitions of the model say what the cited lines do. The comment of each definition cites the lines; where it
  simplifies, the comment says so.
* The semantics of Rust as we read it: `Vec` and slices are lists; arithmetic on `usize` does not overflow unless a comment
  says otherwise (the theorems where it could are stated per word size: C02, C47, C69); panics (`unwrap`, `expect`, indexing,
  `unreachable!`, `assert!`) are explicit results of the model; `?` keeps the effects that happened before.
* Debug assertions (`debug_assert!`) are not part of the released code and not part of the model.

### What is abstracted, and how it is discharged

* Environment of the commands (`Ctap.Oracle`): every interaction (user presence, random bytes, elapsed timers, failing storage
  read or write, power loss before or after any storage write) is answered by an arbitrary oracle. Theorems quantify over it.
* Cryptography of the commands (`Ctap.Dev`): a class of functions with the few laws the code relies on (lengths; decryption
  inverts encryption; a key pair agrees). `Device.software` is an instance made of the modelled code of `libraries/crypto`, with
  all laws proved; C69 is about this instance, the other theorems hold for every instance. Collision resistance or
  unforgeability is never assumed: statements say which function of the code computes the value compared.
* Storage of the commands: a persistent record with atomic updates. C44 and C45 prove that the store is an atomic map, C47 and
  C48 the same for values in fragments. C76 proves that the storage functions on the entries of the store, with the keys and the
  bytes of the code, do what the functions on the record do in some environment.
* Flash of the store (`Store.Flash`): words; a write clears an arbitrary subset of its bits if power is lost during it; an
  erase sets an arbitrary subset. Limits of two writes per word (`max_word_writes`) are not modelled.
* Upgrades (C50, C51, C58): hash and signature verification are parameters.
* Key agreement of the PIN protocols uses the law `exchange` of `Dev`, an instance of C63.

### Not modelled

The drivers of the USB controller and of Bluetooth, the Tock kernel (but for its storage driver, C59, and its USB driver, C93; the main loop and the wait for a button are modelled with arbitrary
answers of the kernel, C84 and C85), the patterns of the LEDs, the CryptoCell hardware
(its driver is C92), attestation certificates as X.509, timing and other side channels, zeroing of memory (`secret.rs`), the quality of
random numbers (they are arbitrary), Ed25519 (a feature that is off by default), OpenSSL (`rust_crypto.rs`, used by tests), the
fuzzing and test environments. `COVERAGE.md` lists the functions file by file.

## Plan per property

| Id | What is modelled | How it is proved |
|----|------------------|------------------|
| C01–C05 | CBOR values, order, reader, writer, map destructuring, UTF-8 check | structural induction on values, recursion on depth; order lemmas; both directions of the round trip |
| C06–C09 | packets, assembler, channels, multiplexing | induction over packet lists with an invariant relating the buffer to the packets seen |
| C10–C15, C56, C57 | PIN commands, PIN protocols, token state, PIN part of the storage | invariants over all histories of inputs, restarts and power losses; every write is a possible crash point |
| C16, C17, C53 | user presence of U2F, `ctap1.rs`, `apdu.rs` | histories with a ghost log of touches; case analysis of the parser |
| C18–C31, C55 | `ctap/mod.rs`, storage, credential management, configuration | decision logic plus invariants over all command histories |
| C32, C33 | large blobs | invariant over histories; list slicing |
| C34–C36, C68 | key store, credentials | round trips; invariants "until" an event of the log or a kind of request |
| C37–C39 | SHA-256, HMAC, HKDF, AES-256, CBC | buffer invariant against FIPS 180-4; tables lifted to all states against FIPS 197 |
| C40, C60–C67 | 256-bit integers, Montgomery limbs, points, ECDSA, ECDH, DER, RFC 6979 | limb bounds and values modulo P; representation of points of Mathlib's Weierstrass curve; group order from a primality certificate |
| C41–C46 | store: word format, positions, operations, compaction, recovery | bit-level lemmas on counts of zeros; refinement to an abstract map with a crash semantics |
| C47, C48 | fragments, `concat.rs` | list induction over the abstract map |
| C49–C52, C58, C59 | partitions, upgrades, boot, clock, storage driver | set semantics of ranges; history invariants |
| C54 | entry points of the command processor with panics as values | invariants that exclude each panic; negation with a witness for the empty message |
| C69 | the commands with the modelled cryptography | composition of C34, C68 with C60–C66; an example run in the kernel |
| C70 | packets in, packets out: both interfaces with the commands behind them | the state of each assembler is a function of the packets since power-up (invariant), C07 on it; the exchange by induction over the packets; wink by induction over the history |
| C71 | logins in an environment where nothing fails (`Oracle.Calm`, `Oracle.Confirms`), honest requests (`GaParams.Fair`) | weakest preconditions for success (`Ok`), function by function; the encoding of every response succeeds because responses nest at most 3 deep; C34 and C68 for the history |
| C72 | honest PIN requests (`PinParams.Sets`, `Changes`, `Asks`) in an environment where nothing fails | the same, with the exact final state of storing and verifying a PIN; the PIN data is an invariant of every other request and restart; C71 for the login |
| C73 | honest registrations (`McParams.Fair`), ids that are no visible credential of the relying party (`St.Unknown`) | the steps of the registration one by one with `Ok` as for C71; the key of the new credential is `Drawn`; C71 for the login |
| C74 | answers as bytes (`WellFormedAnswer`), with the encoding and the decoder of C01 | invariant: stored texts are UTF-8, lengths and counts are bounded (`WireOk`); so each response has representable content (`Fit`) and the writer is canonical on it; no function returns the status of success as an error (`NE`, `NF`, one instance for each function) |
| C75 | look-up of entries in the bytes of the answer to GetInfo (`InfoSpec`); later states with the same settings | inversion of GetInfo gives the values in force; the map of the response contains each key once, so the look-up after decoding (C74) finds them; then C15, C24, C26, C28, C72, C73 or inversion of the command |
| C76 | `Disk.Model`: `storage.rs` on the store of C44 with the encodings of each entry; `Holds`: which entries hold which data; histories of calls with loss of power | round trips of the encodings (C01 for CBOR, C36 for the private key); every call simulates the function on the data in an environment chosen per interaction; environments of consecutive calls are spliced; C44, C45 and C47 for the store |
| C77 | the format of requests as relations (`Command.Says` in `RequestSpec`), over canonical CBOR | the parser of each structure is equivalent to its relation (`Parses`, one lemma each), because the look-up in a canonical map is membership; the inverse by building a map for given parameters |
| C78 | the same relations; a message that says nothing | the other direction of these equivalences and of C01; on 32-bit words with wrapped numbers (a negation is proved for the exact claim) |
| C79 | a relation between the bytes of an answer and its response, field by field (AnswerSpec.lean) | the encoders give a map that the relation accepts (from C74: well-formed); the relation is a partial function |
| C80 | authenticator data as a record with its byte layout, and what it must say about request, state and outcome (AuthDataSpec.lean) | inversion of makeCredential and getAssertion on success; continuations through the session invariant of C25 |
| C81 | `ReturnsExt`: the extension outputs as a function of the registration, the master key and the salts | C80 joined to the frames of C68 (stored) and to the round trip of C09 (wrapped) over `Without` |
| C82 | `EpGranted`; the switch of enterprise attestation in the persistent state | inversion on success; the switch as an invariant of all steps but the request to switch it on |
| C83 | `GivesKey`, `ProvesKey` (LoginSpec.lean): what a relying party reads, with the tables of C79, the layout of C80 and FIPS 186-4; `Exchanged` (UsbSpec.lean) | C77, C79, C80, C81 and C69 composed for `software`; over USB with C70; the example runs both messages through the packets in the kernel |
| C84 | `main.rs` (Verif/Main/Model.lean): iterations with arbitrary outcomes of sending, receiving and buttons; `Orderly` (Spec.lean): the histories that keep to the rules | invariant over runs: the queue of one interface holds what is left of the last answer, the other one is empty; refinement to `Usb.Trace` |
| C85 | `wait_with_timeout` of the Tock environment with arbitrary upcalls and answers of the kernel (Verif/Tock/Presence.lean) | induction over the upcalls; negation for the race |
| C86 | `linear.rs` on `BufferStorage` in strict mode (Verif/Store/Linear.lean) | refinement to an array, induction over histories; the invariant that a word was written at most once for each of its bytes that is not erased; negation for limits below the word size |
| C87 | `ctap1.rs`, `u2f_up.rs`, `main_hid.rs` as for C53, C34, C70 (Verif/Ctap/U2fLive*.lean, Verif/Device/PropsU2f.lean) | invariants for the two timers of the user presence state over all U2F messages and waits; forward execution of a registration and of an authentication; the sealing key stays until a reset; then C70 for the packets and C69 for the signatures |
| C88 | the whole of `Verif/Ctap` as for C22 (Verif/Ctap/Blind*.lean) | a relational logic for two runs: each function outside credential management either does not look at credentials, or looks only through a filter that removes the hidden ones; then induction over histories |
| C89 | the whole of `Verif/Ctap` as for C22 (Verif/Ctap/Veil*.lean) | a relational logic for two runs that ends when a comparison succeeds: each function does not look at the hash, or only asks whether there is one, or compares it with a guess; and a comparison succeeds only for an input that carries the hash; then induction over histories |
| C90 | the upgrade storage and the vendor command as for C51, the bootloader as for C50 (Verif/Tock/Install*.lean) | induction over the pieces: the firmware up to the offset is written and the rest of the page that is begun is erased |
| C91 | C90 and C58 with the models of SHA-256 and ECDSA in place of any cryptography (Verif/Device/Upgrade.lean) | the check of the signature is the one of FIPS 186-4 by C62, C64, C65, except in the cases that these exclude; keys and signatures are shown to exist for all contents |
| C92 | the driver of the CryptoCell 310 and the hash engine as an assumption (Verif/Tock/CryptoCell.lean) | the invariant that the saved state is the one of FIPS 180-4 after the bytes so far, by induction over the pieces; C92_bootloader connects it with the hash in C50, C58, C90 |
| C93 | the USB driver of the kernel, function by function, and the controller as an assumption (Verif/Usb/Capsule.lean) | invariants by induction over the system calls and events: packets taken from the host are delivered or the one that waits; packets for the host are a subsequence of those sent; flags of the driver agree. Panics are shown by runs |
| C94 | the three calls of the USB driver of the application on top of C93, with events of the controller between all their steps (Verif/Usb/UsbApp.lean) | in each phase of a call there is no upcall yet, or one and the kernel does not wait any more; by induction over events and calls. The races are shown by runs |
| C95 | the loop that waits for a touch, without the button, on top of C94, with events of the controller in all places (Verif/Main/Touch.lean) | by induction over histories and rounds, with C70_cancel for the decision and C94 for the packets |
| C96 | the flash driver of the kernel patch, the system call filter of the board, and the library on top of it (Verif/Tock/Nvmc.lean); the controller is a memory whose bits can be cleared, with a counter of writes for each word | case analysis of one request, induction over words and over requests; the layout of the board for the link to C59 |

## Findings

The model and the code agree, and the property as a user would expect it is false; the theorems make them precise.

* C02: on 32-bit targets `size_value as usize` (`reader.rs:152,159`) truncates 64-bit lengths: `5b 00000001 00000000` is
  accepted as an empty byte string (`C02_false_usize32`).
* C08: after 2^32 allocations in one power cycle channel ids repeat (`C08_wraps_after_2_32`).
* C11: a PIN hash that fails to decrypt, or a failing read of the stored hash, decrements the retry counter but is not counted
  as a mismatch of this power cycle, so that all retries can be used without the restart that is asked for after three.
* C17: U2F authentication with control byte 0x08 signs the user presence byte 1 although no touch was consumed.
* C27: authenticatorGetNextAssertion repeats the counter of the assertion that it continues, even after a U2F assertion.
* C29: setMinPINLength with too many relying parties fails with key-store-full after it has changed the minimum length.
* C49: `intersects_range` is wrong for an empty range that starts inside another one. No caller passes one.
* C52: for `ms * frequency ≥ 2^32` fewer ticks are computed and timers fire up to 0.025 % early.
* C54: an empty CTAP2 message panics in the dispatch of the vendor commands of Tock (index 0 of an empty slice) unless it is the
  main channel of a build with a vendor interface. An attestation key that is not a valid secret, once programmed by the
  vendor command, makes U2F registrations panic; so does an I/O error while a keepalive is sent.
* C92: `finalize_and_clear` of the bootloader clears its state "for potential reuse" to zeros, not to the initial value of SHA-256, so
  a second hash with the same object is wrong (C92_reuse). An empty piece that is not the last adds the padding too early
  (C92_empty_piece). The bootloader does neither.
* C93: the USB driver of the kernel panics, by its own assertions, if the application gives up a packet after the controller took it but
  before the host did, and the host takes it later: with the next packet of the host ("assert pending_out", `C93_late_host`), or if the
  application meanwhile sent another one ("Unexpected tx_packet", `C93_keepalive`). The latter also happens if the host sends a packet, e.g.
  to cancel a request, while a keepalive is on its way (`C93_host_cancels`). A packet on the other interface at this moment leaves
  the driver in a state in which it refuses further packets (`C93_other_endpoint`). Whether the controller of the chip can produce
  these events is not settled by the repository, which does not contain its driver.
* C94: the USB driver of the application unregisters its listener and revokes its buffer before it cancels a command whose time is over.
  A packet of the host that comes in between is lost (`C94_lost`) or panics the kernel (`panic!()` for a buffer of fewer than 64 bytes,
  `C94_panic`). The main loop waits with such a timeout in each of its turns. If the host takes a packet after the device gave it up,
  a later call that sends on the other interface takes this for the confirmation of its own packet (`C94_wrong_confirmation`).
* C95: a CANCEL that comes in the race of C94 is lost, and the device goes on to wait for a touch (`C95_lost`). A packet on the other
  interface that comes before the host took a KEEPALIVE leaves this message in the kernel; the kernel then refuses the next one, and the
  application panics ("Error sending KEEPALIVE packet", `C95_other_interface`). This needs no special timing of the controller, only a
  client that is slow to read and a packet on the vendor interface.
* C96: the flash driver sets `waiting` before it checks the alignment, and does not clear it when the check fails. One write to the
  storage whose length is not a multiple of 4 makes all later writes and erases fail until the device restarts (`C96_stuck`). A write that
  is longer than a page loses the buffer of the driver, and all later writes fail (`C96_too_long`). The vendor command for upgrades passes
  its data to the driver without a check of the length, so one such command disables the storage (`C96_upgrade_stuck`). C90 and C91 assume
  that no operation of the flash fails. With this driver that is so for pieces of at most a page whose lengths are multiples of 4, and that
  do not cross the middle of the firmware, where one storage location of the kernel ends and the next begins (`C96_upgrade`, `C96_install`).
* C96: the system call filter checks the length that the application passes, but the driver writes the whole shared buffer; so the kernel
  does not keep the application from writing outside the storage, for instance just behind a location with a length of 0 (`C96_escape`).
* C62: a signature of a hash that is a multiple of the group order is verified wrongly, because the product of the base point
  with zero is (0 : 0 : 1) (`C62_zero_hash`). Finding such a message means inverting the hash.
* C66: `Rfc6979::next` computes the new V from the old V and not from the new K and V, so that signatures whose first
  candidate is rejected differ from RFC 6979 (`C66_deviation`; about one message in 2^32).
* C78: on 32-bit targets the casts `as usize` of `command.rs:389-396` drop the high bits of the numbers of a large-blob request;
  a read at offset 2^32 is a read at offset 0 (`C78_false_usize32`).
* C86: `linear.rs` restores the bytes around a range by writing the words they share with it, so that a word with a range in its
  middle is written three times after its page is erased (`C86_worn`). Storages that allow two writes, the least the store
  requires (`format.rs:179`), are only served if accesses start and end at words. Its tests switch the check off.
* C85: if a press is delivered first and the alarm fires before `stop_alarm`, the kernel answers `ALREADY` and the assertion at
  `env/tock/mod.rs:336` panics, since the callback of the alarm did not run (`C85_race`). The USB driver
  (`usb_ctap_hid.rs`) handles the same answer without a panic.

Smaller ones, that do not contradict a property of the list:

* U2F messages do not end the window in which reset is allowed (C18), nor does reset itself.
* The timer of getNextAssertion is not restarted by it, and a getAssertion that fails late leaves a session (C25).
* A storage error during enumerateRPsGetNextRP skips a relying party (C31).
* A large-blob write with offset 0 and a length above the maximum replaces the expected length before it is refused; anyone may
  restart another client's upload; the buffer survives a reset (C32).
* `updateUserInformation` stores names without truncating them. `changePin` resets the token but not its state.
* Power loss between decrementing and resetting the retries costs a retry even if the PIN was correct.
* A failure in the reset of the key store after the store has been cleared leaves the PIN state of the RAM as it was.
* A stored credential whose id is also a valid sealed id, or two with the same id, make `find_credential` fail; ids are random.
* A listed id with a valid tag but contents that do not parse fails the whole command (needs the device's key).
* Exclude and allow lists ignore the type of a descriptor. Permissions of a token are the default ones for a moment before they
  are narrowed. A PIN that is not UTF-8 counts as one of length 0 and is refused.
* The disabled HID transport still answers channel 0.
* The store: `recover` on a live store would keep the list of found entries (only `Store::new` calls it on a fresh one); a
  storage error is treated as a power loss; the empty value of a fragmented key reads back as absent (C47).
* The rollback of a transaction at startup marks entries as deleted before wiping them, and passes over marked ones: if power
  is lost in between, the wiping is made up for only at the startup after the next.
* Upgrades: the signature covers the hash only, the version and address through the hash; the bootloader does not verify the
  signature; metadata may be torn by a power loss (C51), but a rollback is impossible (C58).
* `montgomery_to_field` combines two carries by `|` where a sum is meant; wrong only for values that no product reaches.
* `is_valid_point_vartime` rejects x = 0, which is a point of the curve (documented in the code, `C64_rejected`).
* The reentrancy assertion of the SHA-256 engine never fires, as it is on a copy of a constant.
* A descriptor with a transport that the firmware does not know (such as "hybrid") makes the whole request fail
  (`data_formats.rs:216-229`, `254-262`), though unknown transports are to be ignored.
