#!/usr/bin/env python3
"""Generates MANIFEST.json. Each entry: property -> (status, theorems, note)."""
import json, os
C = {}
def claim(p, status, theorems, note=""):
    C[p] = {"property": p, "status": status, "theorems": theorems.split(), "note": note}

B = "Verif.Cbor."
def q(prefix, names): return " ".join(prefix + n for n in names.split())

claim("C01", "proved", q(B, "C01_read_write C01_write_canonical C01_mkMap"))
claim("C02", "partial", q(B, "C02_read_canonical_partial C02_read_injective_partial C02_any_usize_partial C02_false_usize32"),
      "Holds with 64-bit usize; false on 32-bit targets (length truncation), proved with a witness.")
claim("C03", "proved", q(B, "C03_read_total C03_recursion_bound C03_suffix"))
claim("C04", "proved", q(B, "C04_cmp_is_encoding_order C04_total_order"))
claim("C05", "proved", q(B, "C05_destructure"))
H = "Verif.Hid."
claim("C06", "proved", q(H, "C06_split_shape C06_roundtrip C06_seq_no_overflow"))
claim("C07", "proved", q(H, "C07_isolation C07_foreign_no_effect"))
claim("C08", "proved", q(H, "C08_unique_ids C08_only_allocated C08_wraps_after_2_32"),
      "Uniqueness for fewer than 2^32-1 allocations per power cycle, as stated; the wrap beyond is proved too.")
claim("C09", "proved", q(H, "C09_exclusive C09_mutual_exclusion C09_origin_and_expiry C09_released_after_expiry"))

K = "Verif.Crypto."
claim("C36", "proved", q(K, "cbc_roundtrip cbc_is_cbc_mode aesCbc_wrapper_roundtrip aesCbcDecrypt_no_panic Aes.aes256_cbc_roundtrip"))
claim("C37", "proved", q(K + "Sha.", "sha256_streaming sha256_hash sha_constants pad_wf"))
claim("C38", "proved", q(K + "Sha.", "hmac_is_rfc2104 hmac_verify hkdf_is_rfc5869 hkdf_empty_salt_is_rfc5869"))
claim("C39", "proved", q(K + "Aes.", "aes_decrypt_encrypt aes_is_fips197 sbox_is_fips aes_encrypt_injective aes_encrypt_length"))

T = "Verif.Ctap."
claim("C10", "proved", q(T, "C10_guess_bound"))
claim("C11", "partial", q(T, "C11_three_wrong_pins_partial C11_retries_frozen_partial Toy.C11_malformed_bypass Toy.C11_read_failure_bypass"),
      "False as stated: malformed requests and failing flash reads bypass the count of mismatches; proved with witnesses. Holds for comparisons when reading does not fail.")

claim("C12", "proved", q(T, "C12_token_only_for_pin"), "")
claim("C13", "proved", q(T, "C13_token_rights"), "")
claim("C14", "proved", q(T, "C14_issued_for C14_used_for"), "")
claim("C15", "proved", q(T, "C15_stored_pin_good C15_pin_policy C15_boot"), "")
claim("C24", "proved", q(T, "C24_unique_and_bounded C24_registration_effect C24_registered C24_full_refused"), "")
claim("C28", "proved", q(T, "C28_min_length_monotone C28_token_needs_long_pin C28_set_min_length"), "")
claim("C29", "partial", q(T, "C29_refused_no_change_partial Toy.C29_false"),
      "False as stated: too many relying parties are detected after the other updates (witness C29_false). Proved when the list fits and storage writes succeed.")
claim("C56", "proved", q(T, "C56_set_pin C56_change_pin C56_hmac_secret C56_hmac_secret_next C56_wrong_pin_new_key"), "")
claim("C20", "proved", q(T, "C20_registration C20_assertion C20_next"), "")
claim("C21", "proved", q(T, "C21_registration C21_assertion C21_next"), "")
claim("C22", "proved", q(T, "C22_listed C22_listed_refused C22_discoverable C22_discoverable_refused C22_next C22_u2f C23_not_excluded"), "")
claim("C26", "proved", q(T, "C26_registration C26_assertion C26_u2f"), "")
claim("C23", "proved", q(T, "C23_excluded C23_not_excluded"), "")
claim("C34", "proved", q(T, "C34_sealed C34_usable C34_u2f C34_u2f_usable C34_u2f_known C34_stored"), "")
claim("C35", "proved", q(T, "C35_unwrap C35_one_relying_party C35_assertion C35_u2f"), "")
claim("C25", "proved", q(T, "C25_enumeration C25_interrupted"), "")
claim("C30", "proved", q(T, "C30_authorised C30_relying_party C30_continued"), "")
claim("C31", "proved", q(T, "C31_relying_parties C31_credentials"),
      "Concerns enumerations all of whose requests succeed; a storage error during enumerateRPsGetNextRP skips a relying party (see DESIGN.md).")
claim("C18", "proved", q(T, "C18_window C18_success"),
      "PoweredUp: power-up time and the CTAP2 requests since; poweredUp_of_reach: every reachable running state is one. "
      "U2F messages do not end the permission (example).")
claim("C19", "proved", q(T, "C19_erased C19_atomic"), "Also for power loss and failing storage at any point.")
claim("C53", "proved", q(T, "C53_apdu C53_request"), "")
claim("C55", "proved", q(T, "C55_truncate C55_stored"), "updateUserInformation stores names without truncating them (see DESIGN.md).")
claim("C32", "proved", q(T, "C32_intact C32_changes C32_failed C32_initial"),
      "Uploaded: the fragments accepted since power-up; uploaded_of_reach: every reachable running state is one.")
claim("C33", "proved", q(T, "C33_read C33_reading C33_complete C33_answered"), "The array in storage is one value here; its shards are C47.")
claim("C16", "proved", q(T, "C16_touched C16_uses C16_one_touch"), "")
claim("C17", "partial", q(T, "C17_enforced_partial Toy.C17_false"), "False for the mode that does not enforce user presence (control byte 0x08): the signature has the user presence bit although nobody touched the device; proved for the other modes.")
claim("C27", "partial", q(T, "C27_increases_partial C27_bounded Toy.C27_false"), "False for authenticatorGetNextAssertion, which repeats the counter of the assertion it continues, even after a U2F assertion in between; proved for all other responses.")
claim("C54", "partial", q(T, "C54_no_panic C54_answered C54_tock_partial C54_empty_panics"),
      "False on a Tock device for the empty message, which panics in the vendor command hook (C54_empty_panics). Proved for every message to the library and every non-empty message on a Tock device. "
      "Assumes that the keepalive does not fail and that a programmed attestation key is valid (the code panics otherwise).")
claim("C57", "proved", q(T, "C57_programmed C57_input C57_once"), "")
S = "Verif.Store."
claim("C41", "proved", q(S, "init_interrupted compact_interrupted internal_interrupted user_interrupted delete_interrupted padding_interrupted"),
      "Words while they are programmed or erased, for every subset of the bits; user entries with header, body and footer in the order of the code.")
claim("C42", "proved", q(S, "init_decodes compact_decodes internal_decodes user_decodes entry_decodes entry_words_distinct"),
      "All parameters in range, for every supported format.")
claim("C43", "proved", q(S, "position_bijective position_ordered position_distance position_fits"),
      "Positions are naturals in the model; position_fits shows that they fit in the u32 of the code during the lifetime.")
claim("C44", "proved", q(S, "C44_new C44_reads C44_ok C44_err C44_history"),
      "Reach is any history from an empty storage, with failures, interruptions and power cycles. remove_handle is not modelled.")
claim("C45", "proved", q(S, "C45_atomic C45_open C45_reopen"),
      "The oracle of a state says at which interactions power is lost, and which bits the current write or erase has modified by then.")
claim("C46", "proved", q(S, "C46_succeeds"),
      "Lifetime is left means two times the size of the storage, as the code may compact once per page and reserve a second round.")
claim("C47", "proved", q(S, "C47_range_keys C47_read C47_read_range C47_invalid C47_held_or_invalid C47_write C47_write_err C47_write_atomic C47_delete"),
      "The empty value has no fragments, so that it reads back as no value (readsAs); this is what the code does.")
claim("C48", "proved", q(S, "C48_empty C48_read C48_ok C48_err C48_atomic C48_history C48_read_any"), "")
K = "Verif.Tock."
claim("C49", "partial", q(K, "C49_intersects_partial C49_empty_intersects C49_intersects_if C49_contains C49_append C49_append_iff C49_pages C49_aligned C49_partition C49_partition_append C49_length C49_find_address C49_ranges_from C49_find_slice"),
      "Everything holds but intersection with an empty range: intersects_range says yes for an empty range that starts inside another one, C49_empty_intersects. C49_intersects_partial is the equivalence for ranges that are not empty.")
claim("C50", "proved", q(K, "C50_boot C50_none C50_images"), "The hash function is a parameter.")
claim("C51", "proved", q(K, "C51_confined C51_request C51_history C51_metadata C51_accepts C51_last C51_command C51_no_panic C51_torn"),
      "Hash and signature verification are parameters. C51_torn shows that the alternative of the cut-off operation is needed.")
claim("C52", "partial", q(K, "C52_time C52_ticks C52_timer_partial C52_not_late C52_early C52_early_bound"),
      "C52_timer_partial covers durations below 2^32 / frequency milliseconds; for longer ones the code computes fewer ticks, so that timers may fire up to 0.025 % early: C52_early is a witness, C52_early_bound the bound. Never late: C52_not_late.")
claim("C58", "proved", q(K, "C58_no_rollback C58_authentic"), "Hash and signature verification are parameters; the conclusion is about the metadata and hash that the bootloader compares.")
claim("C59", "proved", q(K, "C59_distinct C59_exists C59_read C59_bounds C59_write C59_write_aligned C59_write_only C59_erase C59_erase_only C59_images"),
      "The flash driver of the kernel is part of the model: writes clear bits, erases set a page, a failing operation leaves any bytes in its range.")
E = "Verif.P256."
claim("C40", "proved", q(E, "C40_integers C40_shifts C40_bytes C40_modular C40_inverse C40_montgomery C40_conversion"),
      "Functions used only by tests (modinv_vartime and the like) are not modelled.")
claim("C60", "proved", q(E, "C60_group C60_base C60_mul C60_sum C60_complete"),
      "Factors from 1 to N - 1, the values of the type of the code; see C62 for the factor zero in a sum.")
claim("C61", "proved", q(E, "C61_public C61_attempt C61_signature"), "The draws of the generator and the number of turns of the loops are arbitrary.")
claim("C62", "partial", q(E, "C62_verify_partial C62_round_trip_partial C62_zero_exact C62_zero_hash"),
      "False for hashes that are a multiple of the group order: C62_zero_hash is a genuine signature that is rejected, C62_zero_exact says what the code compares with instead. Proved for all other hashes.")
claim("C63", "proved", q(E, "C63_shared C63_agreement"), "")
claim("C64", "proved", q(E, "C64_coordinates C64_uncompressed C64_own C64_rejected"),
      "The code documents that x = 0 is not accepted; C64_rejected: there is a secret with such a public key.")
claim("C65", "proved", q(E, "C65_secret C65_signature C65_der C65_der_unique"), "")
claim("C66", "partial", q(E, "C66_first_partial C66_sha256_partial C66_deviation"),
      "False when the first candidate is not suitable: the code updates its state with the old V. C66_deviation is a secret and a message with SHA-256 for which the signatures differ. Proved when the first candidate is suitable.")
claim("C67", "proved", q(E, "C67_generate C67_uniform"), "")
claim("C68", "proved", q(T, "C68_kept C68_kept_key C68_origin C68_usable"), "")
V = "Verif.Device."
claim("C69", "proved", q(V, "C69_registration C69_sealed C69_stored C69_listed C69_u2f"),
      "For messages below 2^32 bytes, on words of 32 or 64 bits. Real.lean runs a registration and an assertion with the firmware's cryptography in the kernel.")
U = "Verif.Usb."
claim("C70", "proved", q(U, "C70_commands C70_answers C70_executed C70_boot C70_channel C70_exchange C70_wink C70_cancel"),
      "C70_channel needs fewer than 2^32 - 2 channels since power-up (see C08).")
claim("C71", "proved", q(T, "C71_listed C71_discoverable C71_sealed C71_stored"),
      "The private key must be able to sign (RFC 6979, see C66), and the random 32-byte ids of stored credentials must not coincide: two equal ids are refused with an internal error.")
claim("C72", "proved", q(T, "C72_set C72_change C72_token C72_kept C72_login"),
      "C72_token gives the token for any permissions; C72_login continues with a login in the next request. A request that concerns the PIN is any ClientPin request except the ones for the number of retries and the key agreement key, and any Config request.")
claim("C73", "proved", q(T, "C73_registered C73_sealed C73_stored"),
      "C73_sealed and C73_stored chain registration, any history and login. Every draw of the random number generator is assumed to be a private key (the code draws again otherwise). The ids of stored credentials must not coincide (note in C71).")
claim("C74", "proved", q(T, "C74_answer C74_status C74_decodes"),
      "For answers below 2^64 bytes and customizations whose numbers fit 64 bits. Vendor commands of the Tock environment are not part of these messages.")
claim("C75", "proved", q(T, "C75_answered C75_contents C75_pin C75_set_pin C75_verification C75_full C75_register C75_limits"),
      "The entries are looked up in the bytes of the answer with the decoder of C01. C75_answered assumes that the storage works and power stays.")
D = "Verif.Disk."
claim("C76", "proved", q(D, "C76_new C76_reads C76_call C76_lost C76_history"),
      "A refinement: the functions on the store (Verif/Disk/Model.lean) against those on the data that the commands of the model use (Verif/Ctap/Storage.lean), on top of C44, C45 and C47. Flash operations that fail although power stays are not part of the store model.")

claim("C77", "proved", q(T, "C77_understood C77_one_meaning C77_expressible C77_same"),
      "The format (Verif/Ctap/RequestSpec.lean) is stated as relations between values and parameters, apart from the parser.")
claim("C78", "partial", q(T, "C78_exact_partial C78_accepted_partial C78_rephrased C78_refused C78_false_usize32"),
      "Exact for 64-bit words. On 32-bit words the casts to usize drop the high bits of the numbers of a large-blob request (C78_false_usize32), and of the lengths of strings (C02_false_usize32); the theorem for all word sizes allows for it.")

claim("C79", "proved", q(T, "C79_format C79_one_meaning"),
      "For configurations whose numbers and texts fit CBOR (ConfigFits).")
claim("C80", "proved", q(T, "C80_one_meaning C80_registration C80_assertion C80_next"),
      "For registrations with authenticator data shorter than 2^64 bytes (C83 bounds it for the keys of the firmware). RegisteredAs and AssertedAs (AuthDataSpec.lean) list the claims.")
claim("C81", "proved", q(T, "C81_stored C81_wrapped"),
      "For lists of one id in the login; C13 and C71 say which credential answers longer lists.")
claim("C82", "proved", q(T, "C82_certificate C82_asked C82_off C82_switched"),
      "C82_off starts from any state with the switch off; new devices and reset devices have it off.")
claim("C83", "proved", q(V, "C83_registration C83_sealed C83_stored C83_usb_registration C83_usb_sealed C83_usb_stored"),
      "For answers that begin with status 0 and messages that fit the transport; C73 and C13 say when logins succeed. GivesKey and ProvesKey (LoginSpec.lean) are what a relying party checks.")
N = "Verif.Main."
claim("C84", "proved", q(N, "C84_order C84_answered C84_silent C84_sends C84_takes C84_device C84_touch C84_goes_on C84_leds C84_keepalive"),
      "A refinement of the loop to the device of C70 (C84_device) and to the rules of Orderly (Verif/Main/Spec.lean). The drivers' answers are arbitrary; a packet that the kernel drops is not part of the model.")
claim("C85", "partial", q("Verif.Tock.Presence.", "C85_pressed C85_timeout C85_outcome_partial C85_panic C85_race"),
      "False in one case: if the alarm fires between a press and the attempt to stop it, the code panics (C85_race). Everything else is proved; C85_panic says that there is no other case.")
claim("C86", "partial", q("Verif.Store.Linear.", "C86_content_partial C86_succeeds_partial C86_reads_partial C86_aligned C86_worn"),
      "Proved for storages that allow a word to be written as often as it has bytes, and for all storages if the accesses start and end at words (C86_aligned). False otherwise: replacing a byte in the middle of a word writes the word three times (C86_worn), where two writes are common. The firmware does not use this interface.")
claim("C87", "proved", q(T, "C87_registered") + q(V, "C87_usb_any C87_usb"),
      "The touch is described by the messages before it (TouchedFor). User verification must not be required for everything (then U2F is refused by design). Certificates of up to 7000 bytes. That every drawn private key and the attestation key can sign every message is a hypothesis: it says that the search for a nonce ends.")
claim("C88", "proved", q(T, "C88_step C88_boot C88_session C88_equal C88_other_parties C88_protected C88_unlisted"),
      "Both devices meet the same environment (oracle). The stored credentials have different slots, ids and creation orders. Also the number of interactions with the store, the random number generator and the user is the same (Alike contains the environment), so that neither the answers nor their timing, as far as it is modelled, differ.")
claim("C89", "proved", q(T, "C89_step C89_session C89_told_apart C89_right_guess C89_secret"),
      "Both devices meet the same environment (oracle), and make the same interactions with it. The number of code points is stored in the clear beside the hash and is used for the minimum length, so it is the same on both devices. The comparison itself is constant time in the code (subtle); timing inside a function is not modelled.")
claim("C90", "proved", q(K, "C90_install C90_started C90_same_version C90_retry"),
      "For any cryptography. The pieces are sent in order, each with the hash of its data. That the kernel refuses writes that are not aligned to words counts as a failing operation of the flash, which the theorem excludes. The same version again on partition B is installed but not started, because the bootloader prefers A (C90_same_version).")
claim("C91", "partial", q(V, "C91_signature_partial C91_accepted_partial C91_started_partial"),
      "For the cryptography of the firmware (models of libraries/crypto). Missing: contents whose hash is a multiple of the order of the group, which the code verifies wrongly (C62_zero_hash), and a public key whose first coordinate is zero, which it rejects (C64). The bootloader is assumed to compute SHA-256 with its hardware.")
claim("C92", "proved", q(K, "C92_hash C92_bootloader C92_reuse C92_empty_piece"),
      "The hash engine is hardware: that it compresses the blocks it reads, counts bytes and adds the padding is assumed (Engine in Verif/Tock/CryptoCell.lean). C92_reuse and C92_empty_piece show two uses of the driver that give wrong hashes; the bootloader does neither.")
claim("C93", "partial", q(U, "Kernel.C93_received Kernel.C93_sent Kernel.C93_no_panic_partial Kernel.C93_served_partial Kernel.C93_turns_partial Kernel.C93_transmit_partial Kernel.C93_transmit_or_receive_partial Kernel.C93_late_host Kernel.C93_keepalive Kernel.C93_host_cancels Kernel.C93_other_endpoint"),
      "C93_received and C93_sent hold without restrictions. The claim that the kernel does not panic is false: if the application gives up a packet, or gets one, while another is on its way to the host, the next event panics the kernel (C93_late_host, C93_keepalive, C93_host_cancels), or the driver refuses to send (C93_other_endpoint). The theorems with _partial assume a host that takes packets in time and a receive buffer of 64 bytes while the application waits for packets (Prompt). The USB controller is not part of the repository: Legal states what the kernel's interface demands of it.")
claim("C94", "partial", q(U, "Kernel.C94_history_partial Kernel.C94_kind Kernel.C94_no_panic_partial Kernel.C94_sent_partial Kernel.C94_send_partial Kernel.C94_wrong_confirmation Kernel.C94_lost Kernel.C94_panic"),
      "Missing, because false: a packet that comes between the end of a timer and the command that cancels. If it comes before the listener is unregistered it is lost (C94_lost), after the buffer is revoked it panics the kernel (C94_panic). Also missing: a host that takes a packet after the call has given it up; then a call on the other interface says that its packet was sent, which is false (C94_wrong_confirmation). Calls that return an error are not followed further. That the kernel drops upcalls of unregistered listeners, and that a revoked buffer has length 0, is how Tock works (not in the repository).")
C["C94"]["theorems"] += q(N, "C94_any_history_partial").split()
claim("C95", "partial", q(N, "C95_cancel_partial C95_next_partial C95_keepalive_partial C95_ignored_partial C95_lost C95_other_interface"),
      "Missing, because false: a CANCEL that comes between the end of a timer and the command that cancels is lost (C95_lost), and a packet on the other interface before the host took the message makes the application panic in the next round (C95_other_interface; such runs are `none` in the model). C95_next_partial, C95_keepalive_partial and C95_ignored_partial are for hosts that take packets in time (see C93). How long the rounds take is not part of the model.")
claim("C96", "partial", q(K, "C96_write C96_erase C96_fail C96_confined_partial C96_resume C96_served C96_storage_write C96_storage_erase C96_upgrade C96_install C96_stuck C96_upgrade_stuck C96_too_long C96_escape"),
      "Missing, because false: the kernel confines the application to the storage only if the application passes the true length of its buffer (C96_escape), as the library does (hypothesis of C96_confined_partial). C96_stuck and C96_too_long say what one request outside the conditions of C96_served does to all later ones. The controller behind `write_word` and `erase_page_helper` is not in the repository; interruptions are between words.")
out = {"claims": [C[k] for k in sorted(C)]}
json.dump(out, open(os.path.join(os.path.dirname(__file__), "..", "MANIFEST.json"), "w"), indent=1)
