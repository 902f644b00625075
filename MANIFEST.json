{
 "claims": [
  {
   "property": "C01",
   "status": "proved",
   "theorems": [
    "Verif.Cbor.C01_read_write",
    "Verif.Cbor.C01_write_canonical",
    "Verif.Cbor.C01_mkMap"
   ],
   "note": ""
  },
  {
   "property": "C02",
   "status": "partial",
   "theorems": [
    "Verif.Cbor.C02_read_canonical_partial",
    "Verif.Cbor.C02_read_injective_partial",
    "Verif.Cbor.C02_any_usize_partial",
    "Verif.Cbor.C02_false_usize32"
   ],
   "note": "Holds with 64-bit usize; false on 32-bit targets (length truncation), proved with a witness."
  },
  {
   "property": "C03",
   "status": "proved",
   "theorems": [
    "Verif.Cbor.C03_read_total",
    "Verif.Cbor.C03_recursion_bound",
    "Verif.Cbor.C03_suffix"
   ],
   "note": ""
  },
  {
   "property": "C04",
   "status": "proved",
   "theorems": [
    "Verif.Cbor.C04_cmp_is_encoding_order",
    "Verif.Cbor.C04_total_order"
   ],
   "note": ""
  },
  {
   "property": "C05",
   "status": "proved",
   "theorems": [
    "Verif.Cbor.C05_destructure"
   ],
   "note": ""
  },
  {
   "property": "C06",
   "status": "proved",
   "theorems": [
    "Verif.Hid.C06_split_shape",
    "Verif.Hid.C06_roundtrip",
    "Verif.Hid.C06_seq_no_overflow"
   ],
   "note": ""
  },
  {
   "property": "C07",
   "status": "proved",
   "theorems": [
    "Verif.Hid.C07_isolation",
    "Verif.Hid.C07_foreign_no_effect"
   ],
   "note": ""
  },
  {
   "property": "C08",
   "status": "proved",
   "theorems": [
    "Verif.Hid.C08_unique_ids",
    "Verif.Hid.C08_only_allocated",
    "Verif.Hid.C08_wraps_after_2_32"
   ],
   "note": "Uniqueness for fewer than 2^32-1 allocations per power cycle, as stated; the wrap beyond is proved too."
  },
  {
   "property": "C09",
   "status": "proved",
   "theorems": [
    "Verif.Hid.C09_exclusive",
    "Verif.Hid.C09_mutual_exclusion",
    "Verif.Hid.C09_origin_and_expiry",
    "Verif.Hid.C09_released_after_expiry"
   ],
   "note": ""
  },
  {
   "property": "C10",
   "status": "proved",
   "theorems": [
    "Verif.Ctap.C10_guess_bound"
   ],
   "note": ""
  },
  {
   "property": "C11",
   "status": "partial",
   "theorems": [
    "Verif.Ctap.C11_three_wrong_pins_partial",
    "Verif.Ctap.C11_retries_frozen_partial",
    "Verif.Ctap.Toy.C11_malformed_bypass",
    "Verif.Ctap.Toy.C11_read_failure_bypass"
   ],
   "note": "False as stated: malformed requests and failing flash reads bypass the count of mismatches; proved with witnesses. Holds for comparisons when reading does not fail."
  },
  {
   "property": "C12",
   "status": "proved",
   "theorems": [
    "Verif.Ctap.C12_token_only_for_pin"
   ],
   "note": ""
  },
  {
   "property": "C13",
   "status": "proved",
   "theorems": [
    "Verif.Ctap.C13_token_rights"
   ],
   "note": ""
  },
  {
   "property": "C14",
   "status": "proved",
   "theorems": [
    "Verif.Ctap.C14_issued_for",
    "Verif.Ctap.C14_used_for"
   ],
   "note": ""
  },
  {
   "property": "C15",
   "status": "proved",
   "theorems": [
    "Verif.Ctap.C15_stored_pin_good",
    "Verif.Ctap.C15_pin_policy",
    "Verif.Ctap.C15_boot"
   ],
   "note": ""
  },
  {
   "property": "C16",
   "status": "proved",
   "theorems": [
    "Verif.Ctap.C16_touched",
    "Verif.Ctap.C16_uses",
    "Verif.Ctap.C16_one_touch"
   ],
   "note": ""
  },
  {
   "property": "C17",
   "status": "partial",
   "theorems": [
    "Verif.Ctap.C17_enforced_partial",
    "Verif.Ctap.Toy.C17_false"
   ],
   "note": "False for the mode that does not enforce user presence (control byte 0x08): the signature has the user presence bit although nobody touched the device; proved for the other modes."
  },
  {
   "property": "C18",
   "status": "proved",
   "theorems": [
    "Verif.Ctap.C18_window",
    "Verif.Ctap.C18_success"
   ],
   "note": "PoweredUp: power-up time and the CTAP2 requests since; poweredUp_of_reach: every reachable running state is one. U2F messages do not end the permission (example)."
  },
  {
   "property": "C19",
   "status": "proved",
   "theorems": [
    "Verif.Ctap.C19_erased",
    "Verif.Ctap.C19_atomic"
   ],
   "note": "Also for power loss and failing storage at any point."
  },
  {
   "property": "C20",
   "status": "proved",
   "theorems": [
    "Verif.Ctap.C20_registration",
    "Verif.Ctap.C20_assertion",
    "Verif.Ctap.C20_next"
   ],
   "note": ""
  },
  {
   "property": "C21",
   "status": "proved",
   "theorems": [
    "Verif.Ctap.C21_registration",
    "Verif.Ctap.C21_assertion",
    "Verif.Ctap.C21_next"
   ],
   "note": ""
  },
  {
   "property": "C22",
   "status": "proved",
   "theorems": [
    "Verif.Ctap.C22_listed",
    "Verif.Ctap.C22_listed_refused",
    "Verif.Ctap.C22_discoverable",
    "Verif.Ctap.C22_discoverable_refused",
    "Verif.Ctap.C22_next",
    "Verif.Ctap.C22_u2f",
    "Verif.Ctap.C23_not_excluded"
   ],
   "note": ""
  },
  {
   "property": "C23",
   "status": "proved",
   "theorems": [
    "Verif.Ctap.C23_excluded",
    "Verif.Ctap.C23_not_excluded"
   ],
   "note": ""
  },
  {
   "property": "C24",
   "status": "proved",
   "theorems": [
    "Verif.Ctap.C24_unique_and_bounded",
    "Verif.Ctap.C24_registration_effect",
    "Verif.Ctap.C24_registered",
    "Verif.Ctap.C24_full_refused"
   ],
   "note": ""
  },
  {
   "property": "C25",
   "status": "proved",
   "theorems": [
    "Verif.Ctap.C25_enumeration",
    "Verif.Ctap.C25_interrupted"
   ],
   "note": ""
  },
  {
   "property": "C26",
   "status": "proved",
   "theorems": [
    "Verif.Ctap.C26_registration",
    "Verif.Ctap.C26_assertion",
    "Verif.Ctap.C26_u2f"
   ],
   "note": ""
  },
  {
   "property": "C27",
   "status": "partial",
   "theorems": [
    "Verif.Ctap.C27_increases_partial",
    "Verif.Ctap.C27_bounded",
    "Verif.Ctap.Toy.C27_false"
   ],
   "note": "False for authenticatorGetNextAssertion, which repeats the counter of the assertion it continues, even after a U2F assertion in between; proved for all other responses."
  },
  {
   "property": "C28",
   "status": "proved",
   "theorems": [
    "Verif.Ctap.C28_min_length_monotone",
    "Verif.Ctap.C28_token_needs_long_pin",
    "Verif.Ctap.C28_set_min_length"
   ],
   "note": ""
  },
  {
   "property": "C29",
   "status": "partial",
   "theorems": [
    "Verif.Ctap.C29_refused_no_change_partial",
    "Verif.Ctap.Toy.C29_false"
   ],
   "note": "False as stated: too many relying parties are detected after the other updates (witness C29_false). Proved when the list fits and storage writes succeed."
  },
  {
   "property": "C30",
   "status": "proved",
   "theorems": [
    "Verif.Ctap.C30_authorised",
    "Verif.Ctap.C30_relying_party",
    "Verif.Ctap.C30_continued"
   ],
   "note": ""
  },
  {
   "property": "C31",
   "status": "proved",
   "theorems": [
    "Verif.Ctap.C31_relying_parties",
    "Verif.Ctap.C31_credentials"
   ],
   "note": "Concerns enumerations all of whose requests succeed; a storage error during enumerateRPsGetNextRP skips a relying party (see DESIGN.md)."
  },
  {
   "property": "C32",
   "status": "proved",
   "theorems": [
    "Verif.Ctap.C32_intact",
    "Verif.Ctap.C32_changes",
    "Verif.Ctap.C32_failed",
    "Verif.Ctap.C32_initial"
   ],
   "note": "Uploaded: the fragments accepted since power-up; uploaded_of_reach: every reachable running state is one."
  },
  {
   "property": "C33",
   "status": "proved",
   "theorems": [
    "Verif.Ctap.C33_read",
    "Verif.Ctap.C33_reading",
    "Verif.Ctap.C33_complete",
    "Verif.Ctap.C33_answered"
   ],
   "note": "The array in storage is one value here; its shards are C47."
  },
  {
   "property": "C34",
   "status": "proved",
   "theorems": [
    "Verif.Ctap.C34_sealed",
    "Verif.Ctap.C34_usable",
    "Verif.Ctap.C34_u2f",
    "Verif.Ctap.C34_u2f_usable",
    "Verif.Ctap.C34_u2f_known",
    "Verif.Ctap.C34_stored"
   ],
   "note": ""
  },
  {
   "property": "C35",
   "status": "proved",
   "theorems": [
    "Verif.Ctap.C35_unwrap",
    "Verif.Ctap.C35_one_relying_party",
    "Verif.Ctap.C35_assertion",
    "Verif.Ctap.C35_u2f"
   ],
   "note": ""
  },
  {
   "property": "C36",
   "status": "proved",
   "theorems": [
    "Verif.Crypto.cbc_roundtrip",
    "Verif.Crypto.cbc_is_cbc_mode",
    "Verif.Crypto.aesCbc_wrapper_roundtrip",
    "Verif.Crypto.aesCbcDecrypt_no_panic",
    "Verif.Crypto.Aes.aes256_cbc_roundtrip"
   ],
   "note": ""
  },
  {
   "property": "C37",
   "status": "proved",
   "theorems": [
    "Verif.Crypto.Sha.sha256_streaming",
    "Verif.Crypto.Sha.sha256_hash",
    "Verif.Crypto.Sha.sha_constants",
    "Verif.Crypto.Sha.pad_wf"
   ],
   "note": ""
  },
  {
   "property": "C38",
   "status": "proved",
   "theorems": [
    "Verif.Crypto.Sha.hmac_is_rfc2104",
    "Verif.Crypto.Sha.hmac_verify",
    "Verif.Crypto.Sha.hkdf_is_rfc5869",
    "Verif.Crypto.Sha.hkdf_empty_salt_is_rfc5869"
   ],
   "note": ""
  },
  {
   "property": "C39",
   "status": "proved",
   "theorems": [
    "Verif.Crypto.Aes.aes_decrypt_encrypt",
    "Verif.Crypto.Aes.aes_is_fips197",
    "Verif.Crypto.Aes.sbox_is_fips",
    "Verif.Crypto.Aes.aes_encrypt_injective",
    "Verif.Crypto.Aes.aes_encrypt_length"
   ],
   "note": ""
  },
  {
   "property": "C40",
   "status": "proved",
   "theorems": [
    "Verif.P256.C40_integers",
    "Verif.P256.C40_shifts",
    "Verif.P256.C40_bytes",
    "Verif.P256.C40_modular",
    "Verif.P256.C40_inverse",
    "Verif.P256.C40_montgomery",
    "Verif.P256.C40_conversion"
   ],
   "note": "Functions used only by tests (modinv_vartime and the like) are not modelled."
  },
  {
   "property": "C41",
   "status": "proved",
   "theorems": [
    "Verif.Store.init_interrupted",
    "Verif.Store.compact_interrupted",
    "Verif.Store.internal_interrupted",
    "Verif.Store.user_interrupted",
    "Verif.Store.delete_interrupted",
    "Verif.Store.padding_interrupted"
   ],
   "note": "Words while they are programmed or erased, for every subset of the bits; user entries with header, body and footer in the order of the code."
  },
  {
   "property": "C42",
   "status": "proved",
   "theorems": [
    "Verif.Store.init_decodes",
    "Verif.Store.compact_decodes",
    "Verif.Store.internal_decodes",
    "Verif.Store.user_decodes",
    "Verif.Store.entry_decodes",
    "Verif.Store.entry_words_distinct"
   ],
   "note": "All parameters in range, for every supported format."
  },
  {
   "property": "C43",
   "status": "proved",
   "theorems": [
    "Verif.Store.position_bijective",
    "Verif.Store.position_ordered",
    "Verif.Store.position_distance",
    "Verif.Store.position_fits"
   ],
   "note": "Positions are naturals in the model; position_fits shows that they fit in the u32 of the code during the lifetime."
  },
  {
   "property": "C44",
   "status": "proved",
   "theorems": [
    "Verif.Store.C44_new",
    "Verif.Store.C44_reads",
    "Verif.Store.C44_ok",
    "Verif.Store.C44_err",
    "Verif.Store.C44_history"
   ],
   "note": "Reach is any history from an empty storage, with failures, interruptions and power cycles. remove_handle is not modelled."
  },
  {
   "property": "C45",
   "status": "proved",
   "theorems": [
    "Verif.Store.C45_atomic",
    "Verif.Store.C45_open",
    "Verif.Store.C45_reopen"
   ],
   "note": "The oracle of a state says at which interactions power is lost, and which bits the current write or erase has modified by then."
  },
  {
   "property": "C46",
   "status": "proved",
   "theorems": [
    "Verif.Store.C46_succeeds"
   ],
   "note": "Lifetime is left means two times the size of the storage, as the code may compact once per page and reserve a second round."
  },
  {
   "property": "C47",
   "status": "proved",
   "theorems": [
    "Verif.Store.C47_range_keys",
    "Verif.Store.C47_read",
    "Verif.Store.C47_read_range",
    "Verif.Store.C47_invalid",
    "Verif.Store.C47_held_or_invalid",
    "Verif.Store.C47_write",
    "Verif.Store.C47_write_err",
    "Verif.Store.C47_write_atomic",
    "Verif.Store.C47_delete"
   ],
   "note": "The empty value has no fragments, so that it reads back as no value (readsAs); this is what the code does."
  },
  {
   "property": "C48",
   "status": "proved",
   "theorems": [
    "Verif.Store.C48_empty",
    "Verif.Store.C48_read",
    "Verif.Store.C48_ok",
    "Verif.Store.C48_err",
    "Verif.Store.C48_atomic",
    "Verif.Store.C48_history",
    "Verif.Store.C48_read_any"
   ],
   "note": ""
  },
  {
   "property": "C49",
   "status": "partial",
   "theorems": [
    "Verif.Tock.C49_intersects_partial",
    "Verif.Tock.C49_empty_intersects",
    "Verif.Tock.C49_intersects_if",
    "Verif.Tock.C49_contains",
    "Verif.Tock.C49_append",
    "Verif.Tock.C49_append_iff",
    "Verif.Tock.C49_pages",
    "Verif.Tock.C49_aligned",
    "Verif.Tock.C49_partition",
    "Verif.Tock.C49_partition_append",
    "Verif.Tock.C49_length",
    "Verif.Tock.C49_find_address",
    "Verif.Tock.C49_ranges_from",
    "Verif.Tock.C49_find_slice"
   ],
   "note": "Everything holds but intersection with an empty range: intersects_range says yes for an empty range that starts inside another one, C49_empty_intersects. C49_intersects_partial is the equivalence for ranges that are not empty."
  },
  {
   "property": "C50",
   "status": "proved",
   "theorems": [
    "Verif.Tock.C50_boot",
    "Verif.Tock.C50_none",
    "Verif.Tock.C50_images"
   ],
   "note": "The hash function is a parameter."
  },
  {
   "property": "C51",
   "status": "proved",
   "theorems": [
    "Verif.Tock.C51_confined",
    "Verif.Tock.C51_request",
    "Verif.Tock.C51_history",
    "Verif.Tock.C51_metadata",
    "Verif.Tock.C51_accepts",
    "Verif.Tock.C51_last",
    "Verif.Tock.C51_command",
    "Verif.Tock.C51_no_panic",
    "Verif.Tock.C51_torn"
   ],
   "note": "Hash and signature verification are parameters. C51_torn shows that the alternative of the cut-off operation is needed."
  },
  {
   "property": "C52",
   "status": "partial",
   "theorems": [
    "Verif.Tock.C52_time",
    "Verif.Tock.C52_ticks",
    "Verif.Tock.C52_timer_partial",
    "Verif.Tock.C52_not_late",
    "Verif.Tock.C52_early",
    "Verif.Tock.C52_early_bound"
   ],
   "note": "C52_timer_partial covers durations below 2^32 / frequency milliseconds; for longer ones the code computes fewer ticks, so that timers may fire up to 0.025 % early: C52_early is a witness, C52_early_bound the bound. Never late: C52_not_late."
  },
  {
   "property": "C53",
   "status": "proved",
   "theorems": [
    "Verif.Ctap.C53_apdu",
    "Verif.Ctap.C53_request"
   ],
   "note": ""
  },
  {
   "property": "C54",
   "status": "partial",
   "theorems": [
    "Verif.Ctap.C54_no_panic",
    "Verif.Ctap.C54_answered",
    "Verif.Ctap.C54_tock_partial",
    "Verif.Ctap.C54_empty_panics"
   ],
   "note": "False on a Tock device for the empty message, which panics in the vendor command hook (C54_empty_panics). Proved for every message to the library and every non-empty message on a Tock device. Assumes that the keepalive does not fail and that a programmed attestation key is valid (the code panics otherwise)."
  },
  {
   "property": "C55",
   "status": "proved",
   "theorems": [
    "Verif.Ctap.C55_truncate",
    "Verif.Ctap.C55_stored"
   ],
   "note": "updateUserInformation stores names without truncating them (see DESIGN.md)."
  },
  {
   "property": "C56",
   "status": "proved",
   "theorems": [
    "Verif.Ctap.C56_set_pin",
    "Verif.Ctap.C56_change_pin",
    "Verif.Ctap.C56_hmac_secret",
    "Verif.Ctap.C56_hmac_secret_next",
    "Verif.Ctap.C56_wrong_pin_new_key"
   ],
   "note": ""
  },
  {
   "property": "C57",
   "status": "proved",
   "theorems": [
    "Verif.Ctap.C57_programmed",
    "Verif.Ctap.C57_input",
    "Verif.Ctap.C57_once"
   ],
   "note": ""
  },
  {
   "property": "C58",
   "status": "proved",
   "theorems": [
    "Verif.Tock.C58_no_rollback",
    "Verif.Tock.C58_authentic"
   ],
   "note": "Hash and signature verification are parameters; the conclusion is about the metadata and hash that the bootloader compares."
  },
  {
   "property": "C59",
   "status": "proved",
   "theorems": [
    "Verif.Tock.C59_distinct",
    "Verif.Tock.C59_exists",
    "Verif.Tock.C59_read",
    "Verif.Tock.C59_bounds",
    "Verif.Tock.C59_write",
    "Verif.Tock.C59_write_aligned",
    "Verif.Tock.C59_write_only",
    "Verif.Tock.C59_erase",
    "Verif.Tock.C59_erase_only",
    "Verif.Tock.C59_images"
   ],
   "note": "The flash driver of the kernel is part of the model: writes clear bits, erases set a page, a failing operation leaves any bytes in its range."
  },
  {
   "property": "C60",
   "status": "proved",
   "theorems": [
    "Verif.P256.C60_group",
    "Verif.P256.C60_base",
    "Verif.P256.C60_mul",
    "Verif.P256.C60_sum",
    "Verif.P256.C60_complete"
   ],
   "note": "Factors from 1 to N - 1, the values of the type of the code; see C62 for the factor zero in a sum."
  },
  {
   "property": "C61",
   "status": "proved",
   "theorems": [
    "Verif.P256.C61_public",
    "Verif.P256.C61_attempt",
    "Verif.P256.C61_signature"
   ],
   "note": "The draws of the generator and the number of turns of the loops are arbitrary."
  },
  {
   "property": "C62",
   "status": "partial",
   "theorems": [
    "Verif.P256.C62_verify_partial",
    "Verif.P256.C62_round_trip_partial",
    "Verif.P256.C62_zero_exact",
    "Verif.P256.C62_zero_hash"
   ],
   "note": "False for hashes that are a multiple of the group order: C62_zero_hash is a genuine signature that is rejected, C62_zero_exact says what the code compares with instead. Proved for all other hashes."
  },
  {
   "property": "C63",
   "status": "proved",
   "theorems": [
    "Verif.P256.C63_shared",
    "Verif.P256.C63_agreement"
   ],
   "note": ""
  },
  {
   "property": "C64",
   "status": "proved",
   "theorems": [
    "Verif.P256.C64_coordinates",
    "Verif.P256.C64_uncompressed",
    "Verif.P256.C64_own",
    "Verif.P256.C64_rejected"
   ],
   "note": "The code documents that x = 0 is not accepted; C64_rejected: there is a secret with such a public key."
  },
  {
   "property": "C65",
   "status": "proved",
   "theorems": [
    "Verif.P256.C65_secret",
    "Verif.P256.C65_signature",
    "Verif.P256.C65_der",
    "Verif.P256.C65_der_unique"
   ],
   "note": ""
  },
  {
   "property": "C66",
   "status": "partial",
   "theorems": [
    "Verif.P256.C66_first_partial",
    "Verif.P256.C66_sha256_partial",
    "Verif.P256.C66_deviation"
   ],
   "note": "False when the first candidate is not suitable: the code updates its state with the old V. C66_deviation is a secret and a message with SHA-256 for which the signatures differ. Proved when the first candidate is suitable."
  },
  {
   "property": "C67",
   "status": "proved",
   "theorems": [
    "Verif.P256.C67_generate",
    "Verif.P256.C67_uniform"
   ],
   "note": ""
  },
  {
   "property": "C68",
   "status": "proved",
   "theorems": [
    "Verif.Ctap.C68_kept",
    "Verif.Ctap.C68_kept_key",
    "Verif.Ctap.C68_origin",
    "Verif.Ctap.C68_usable"
   ],
   "note": ""
  },
  {
   "property": "C69",
   "status": "proved",
   "theorems": [
    "Verif.Device.C69_registration",
    "Verif.Device.C69_sealed",
    "Verif.Device.C69_stored",
    "Verif.Device.C69_listed",
    "Verif.Device.C69_u2f"
   ],
   "note": "For messages below 2^32 bytes, on words of 32 or 64 bits. Real.lean runs a registration and an assertion with the firmware's cryptography in the kernel."
  },
  {
   "property": "C70",
   "status": "proved",
   "theorems": [
    "Verif.Usb.C70_commands",
    "Verif.Usb.C70_answers",
    "Verif.Usb.C70_executed",
    "Verif.Usb.C70_boot",
    "Verif.Usb.C70_channel",
    "Verif.Usb.C70_exchange",
    "Verif.Usb.C70_wink",
    "Verif.Usb.C70_cancel"
   ],
   "note": "C70_channel needs fewer than 2^32 - 2 channels since power-up (see C08)."
  },
  {
   "property": "C71",
   "status": "proved",
   "theorems": [
    "Verif.Ctap.C71_listed",
    "Verif.Ctap.C71_discoverable",
    "Verif.Ctap.C71_sealed",
    "Verif.Ctap.C71_stored"
   ],
   "note": "The private key must be able to sign (RFC 6979, see C66), and the random 32-byte ids of stored credentials must not coincide: two equal ids are refused with an internal error."
  },
  {
   "property": "C72",
   "status": "proved",
   "theorems": [
    "Verif.Ctap.C72_set",
    "Verif.Ctap.C72_change",
    "Verif.Ctap.C72_token",
    "Verif.Ctap.C72_kept",
    "Verif.Ctap.C72_login"
   ],
   "note": "C72_token gives the token for any permissions; C72_login continues with a login in the next request. A request that concerns the PIN is any ClientPin request except the ones for the number of retries and the key agreement key, and any Config request."
  },
  {
   "property": "C73",
   "status": "proved",
   "theorems": [
    "Verif.Ctap.C73_registered",
    "Verif.Ctap.C73_sealed",
    "Verif.Ctap.C73_stored"
   ],
   "note": "C73_sealed and C73_stored chain registration, any history and login. Every draw of the random number generator is assumed to be a private key (the code draws again otherwise). The ids of stored credentials must not coincide (note in C71)."
  },
  {
   "property": "C74",
   "status": "proved",
   "theorems": [
    "Verif.Ctap.C74_answer",
    "Verif.Ctap.C74_status",
    "Verif.Ctap.C74_decodes"
   ],
   "note": "For answers below 2^64 bytes and customizations whose numbers fit 64 bits. Vendor commands of the Tock environment are not part of these messages."
  },
  {
   "property": "C75",
   "status": "proved",
   "theorems": [
    "Verif.Ctap.C75_answered",
    "Verif.Ctap.C75_contents",
    "Verif.Ctap.C75_pin",
    "Verif.Ctap.C75_set_pin",
    "Verif.Ctap.C75_verification",
    "Verif.Ctap.C75_full",
    "Verif.Ctap.C75_register",
    "Verif.Ctap.C75_limits"
   ],
   "note": "The entries are looked up in the bytes of the answer with the decoder of C01. C75_answered assumes that the storage works and power stays."
  },
  {
   "property": "C76",
   "status": "proved",
   "theorems": [
    "Verif.Disk.C76_new",
    "Verif.Disk.C76_reads",
    "Verif.Disk.C76_call",
    "Verif.Disk.C76_lost",
    "Verif.Disk.C76_history"
   ],
   "note": "A refinement: the functions on the store (Verif/Disk/Model.lean) against those on the data that the commands of the model use (Verif/Ctap/Storage.lean), on top of C44, C45 and C47. Flash operations that fail although power stays are not part of the store model."
  },
  {
   "property": "C77",
   "status": "proved",
   "theorems": [
    "Verif.Ctap.C77_understood",
    "Verif.Ctap.C77_one_meaning",
    "Verif.Ctap.C77_expressible",
    "Verif.Ctap.C77_same"
   ],
   "note": "The format (Verif/Ctap/RequestSpec.lean) is stated as relations between values and parameters, apart from the parser."
  },
  {
   "property": "C78",
   "status": "partial",
   "theorems": [
    "Verif.Ctap.C78_exact_partial",
    "Verif.Ctap.C78_accepted_partial",
    "Verif.Ctap.C78_rephrased",
    "Verif.Ctap.C78_refused",
    "Verif.Ctap.C78_false_usize32"
   ],
   "note": "Exact for 64-bit words. On 32-bit words the casts to usize drop the high bits of the numbers of a large-blob request (C78_false_usize32), and of the lengths of strings (C02_false_usize32); the theorem for all word sizes allows for it."
  },
  {
   "property": "C79",
   "status": "proved",
   "theorems": [
    "Verif.Ctap.C79_format",
    "Verif.Ctap.C79_one_meaning"
   ],
   "note": "For configurations whose numbers and texts fit CBOR (ConfigFits)."
  },
  {
   "property": "C80",
   "status": "proved",
   "theorems": [
    "Verif.Ctap.C80_one_meaning",
    "Verif.Ctap.C80_registration",
    "Verif.Ctap.C80_assertion",
    "Verif.Ctap.C80_next"
   ],
   "note": "For registrations with authenticator data shorter than 2^64 bytes (C83 bounds it for the keys of the firmware). RegisteredAs and AssertedAs (AuthDataSpec.lean) list the claims."
  },
  {
   "property": "C81",
   "status": "proved",
   "theorems": [
    "Verif.Ctap.C81_stored",
    "Verif.Ctap.C81_wrapped"
   ],
   "note": "For lists of one id in the login; C13 and C71 say which credential answers longer lists."
  },
  {
   "property": "C82",
   "status": "proved",
   "theorems": [
    "Verif.Ctap.C82_certificate",
    "Verif.Ctap.C82_asked",
    "Verif.Ctap.C82_off",
    "Verif.Ctap.C82_switched"
   ],
   "note": "C82_off starts from any state with the switch off; new devices and reset devices have it off."
  },
  {
   "property": "C83",
   "status": "proved",
   "theorems": [
    "Verif.Device.C83_registration",
    "Verif.Device.C83_sealed",
    "Verif.Device.C83_stored",
    "Verif.Device.C83_usb_registration",
    "Verif.Device.C83_usb_sealed",
    "Verif.Device.C83_usb_stored"
   ],
   "note": "For answers that begin with status 0 and messages that fit the transport; C73 and C13 say when logins succeed. GivesKey and ProvesKey (LoginSpec.lean) are what a relying party checks."
  },
  {
   "property": "C84",
   "status": "proved",
   "theorems": [
    "Verif.Main.C84_order",
    "Verif.Main.C84_answered",
    "Verif.Main.C84_silent",
    "Verif.Main.C84_sends",
    "Verif.Main.C84_takes",
    "Verif.Main.C84_device",
    "Verif.Main.C84_touch",
    "Verif.Main.C84_goes_on",
    "Verif.Main.C84_leds",
    "Verif.Main.C84_keepalive"
   ],
   "note": "A refinement of the loop to the device of C70 (C84_device) and to the rules of Orderly (Verif/Main/Spec.lean). The drivers' answers are arbitrary; a packet that the kernel drops is not part of the model."
  },
  {
   "property": "C85",
   "status": "partial",
   "theorems": [
    "Verif.Tock.Presence.C85_pressed",
    "Verif.Tock.Presence.C85_timeout",
    "Verif.Tock.Presence.C85_outcome_partial",
    "Verif.Tock.Presence.C85_panic",
    "Verif.Tock.Presence.C85_race"
   ],
   "note": "False in one case: if the alarm fires between a press and the attempt to stop it, the code panics (C85_race). Everything else is proved; C85_panic says that there is no other case."
  },
  {
   "property": "C86",
   "status": "partial",
   "theorems": [
    "Verif.Store.Linear.C86_content_partial",
    "Verif.Store.Linear.C86_succeeds_partial",
    "Verif.Store.Linear.C86_reads_partial",
    "Verif.Store.Linear.C86_aligned",
    "Verif.Store.Linear.C86_worn"
   ],
   "note": "Proved for storages that allow a word to be written as often as it has bytes, and for all storages if the accesses start and end at words (C86_aligned). False otherwise: replacing a byte in the middle of a word writes the word three times (C86_worn), where two writes are common. The firmware does not use this interface."
  },
  {
   "property": "C87",
   "status": "proved",
   "theorems": [
    "Verif.Ctap.C87_registeredVerif.Device.C87_usb_any",
    "Verif.Device.C87_usb"
   ],
   "note": "The touch is described by the messages before it (TouchedFor). User verification must not be required for everything (then U2F is refused by design). Certificates of up to 7000 bytes. That every drawn private key and the attestation key can sign every message is a hypothesis: it says that the search for a nonce ends."
  },
  {
   "property": "C88",
   "status": "proved",
   "theorems": [
    "Verif.Ctap.C88_step",
    "Verif.Ctap.C88_boot",
    "Verif.Ctap.C88_session",
    "Verif.Ctap.C88_equal",
    "Verif.Ctap.C88_other_parties",
    "Verif.Ctap.C88_protected",
    "Verif.Ctap.C88_unlisted"
   ],
   "note": "Both devices meet the same environment (oracle). The stored credentials have different slots, ids and creation orders. Also the number of interactions with the store, the random number generator and the user is the same (Alike contains the environment), so that neither the answers nor their timing, as far as it is modelled, differ."
  },
  {
   "property": "C89",
   "status": "proved",
   "theorems": [
    "Verif.Ctap.C89_step",
    "Verif.Ctap.C89_session",
    "Verif.Ctap.C89_told_apart",
    "Verif.Ctap.C89_right_guess",
    "Verif.Ctap.C89_secret"
   ],
   "note": "Both devices meet the same environment (oracle), and make the same interactions with it. The number of code points is stored in the clear beside the hash and is used for the minimum length, so it is the same on both devices. The comparison itself is constant time in the code (subtle); timing inside a function is not modelled."
  },
  {
   "property": "C90",
   "status": "proved",
   "theorems": [
    "Verif.Tock.C90_install",
    "Verif.Tock.C90_started",
    "Verif.Tock.C90_same_version",
    "Verif.Tock.C90_retry"
   ],
   "note": "For any cryptography. The pieces are sent in order, each with the hash of its data. That the kernel refuses writes that are not aligned to words counts as a failing operation of the flash, which the theorem excludes. The same version again on partition B is installed but not started, because the bootloader prefers A (C90_same_version)."
  },
  {
   "property": "C91",
   "status": "partial",
   "theorems": [
    "Verif.Device.C91_signature_partial",
    "Verif.Device.C91_accepted_partial",
    "Verif.Device.C91_started_partial"
   ],
   "note": "For the cryptography of the firmware (models of libraries/crypto). Missing: contents whose hash is a multiple of the order of the group, which the code verifies wrongly (C62_zero_hash), and a public key whose first coordinate is zero, which it rejects (C64). The bootloader is assumed to compute SHA-256 with its hardware."
  },
  {
   "property": "C92",
   "status": "proved",
   "theorems": [
    "Verif.Tock.C92_hash",
    "Verif.Tock.C92_bootloader",
    "Verif.Tock.C92_reuse",
    "Verif.Tock.C92_empty_piece"
   ],
   "note": "The hash engine is hardware: that it compresses the blocks it reads, counts bytes and adds the padding is assumed (Engine in Verif/Tock/CryptoCell.lean). C92_reuse and C92_empty_piece show two uses of the driver that give wrong hashes; the bootloader does neither."
  },
  {
   "property": "C93",
   "status": "partial",
   "theorems": [
    "Verif.Usb.Kernel.C93_received",
    "Verif.Usb.Kernel.C93_sent",
    "Verif.Usb.Kernel.C93_no_panic_partial",
    "Verif.Usb.Kernel.C93_served_partial",
    "Verif.Usb.Kernel.C93_turns_partial",
    "Verif.Usb.Kernel.C93_transmit_partial",
    "Verif.Usb.Kernel.C93_transmit_or_receive_partial",
    "Verif.Usb.Kernel.C93_late_host",
    "Verif.Usb.Kernel.C93_keepalive",
    "Verif.Usb.Kernel.C93_host_cancels",
    "Verif.Usb.Kernel.C93_other_endpoint"
   ],
   "note": "C93_received and C93_sent hold without restrictions. The claim that the kernel does not panic is false: if the application gives up a packet, or gets one, while another is on its way to the host, the next event panics the kernel (C93_late_host, C93_keepalive, C93_host_cancels), or the driver refuses to send (C93_other_endpoint). The theorems with _partial assume a host that takes packets in time and a receive buffer of 64 bytes while the application waits for packets (Prompt). The USB controller is not part of the repository: Legal states what the kernel's interface demands of it."
  },
  {
   "property": "C94",
   "status": "partial",
   "theorems": [
    "Verif.Usb.Kernel.C94_history_partial",
    "Verif.Usb.Kernel.C94_kind",
    "Verif.Usb.Kernel.C94_no_panic_partial",
    "Verif.Usb.Kernel.C94_sent_partial",
    "Verif.Usb.Kernel.C94_send_partial",
    "Verif.Usb.Kernel.C94_wrong_confirmation",
    "Verif.Usb.Kernel.C94_lost",
    "Verif.Usb.Kernel.C94_panic",
    "Verif.Main.C94_any_history_partial"
   ],
   "note": "Missing, because false: a packet that comes between the end of a timer and the command that cancels. If it comes before the listener is unregistered it is lost (C94_lost), after the buffer is revoked it panics the kernel (C94_panic). Also missing: a host that takes a packet after the call has given it up; then a call on the other interface says that its packet was sent, which is false (C94_wrong_confirmation). Calls that return an error are not followed further. That the kernel drops upcalls of unregistered listeners, and that a revoked buffer has length 0, is how Tock works (not in the repository)."
  },
  {
   "property": "C95",
   "status": "partial",
   "theorems": [
    "Verif.Main.C95_cancel_partial",
    "Verif.Main.C95_next_partial",
    "Verif.Main.C95_keepalive_partial",
    "Verif.Main.C95_ignored_partial",
    "Verif.Main.C95_lost",
    "Verif.Main.C95_other_interface"
   ],
   "note": "Missing, because false: a CANCEL that comes between the end of a timer and the command that cancels is lost (C95_lost), and a packet on the other interface before the host took the message makes the application panic in the next round (C95_other_interface; such runs are `none` in the model). C95_next_partial, C95_keepalive_partial and C95_ignored_partial are for hosts that take packets in time (see C93). How long the rounds take is not part of the model."
  },
  {
   "property": "C96",
   "status": "partial",
   "theorems": [
    "Verif.Tock.C96_write",
    "Verif.Tock.C96_erase",
    "Verif.Tock.C96_fail",
    "Verif.Tock.C96_confined_partial",
    "Verif.Tock.C96_resume",
    "Verif.Tock.C96_served",
    "Verif.Tock.C96_storage_write",
    "Verif.Tock.C96_storage_erase",
    "Verif.Tock.C96_upgrade",
    "Verif.Tock.C96_install",
    "Verif.Tock.C96_stuck",
    "Verif.Tock.C96_upgrade_stuck",
    "Verif.Tock.C96_too_long",
    "Verif.Tock.C96_escape"
   ],
   "note": "Missing, because false: the kernel confines the application to the storage only if the application passes the true length of its buffer (C96_escape), as the library does (hypothesis of C96_confined_partial). C96_stuck and C96_too_long say what one request outside the conditions of C96_served does to all later ones. The controller behind `write_word` and `erase_page_helper` is not in the repository; interruptions are between words."
  }
 ]
}