# Axioms of the theorems in MANIFEST.json

Generated by `sh scripts/axioms.sh | python3 scripts/axioms_table.py`.

## Classical.choice, Quot.sound, propext

* `Verif.Cbor.C01_mkMap`
* `Verif.Cbor.C01_read_write`
* `Verif.Cbor.C01_write_canonical`
* `Verif.Cbor.C02_any_usize_partial`
* `Verif.Cbor.C02_read_canonical_partial`
* `Verif.Cbor.C02_read_injective_partial`
* `Verif.Cbor.C03_read_total`
* `Verif.Cbor.C03_recursion_bound`
* `Verif.Cbor.C03_suffix`
* `Verif.Cbor.C04_cmp_is_encoding_order`
* `Verif.Cbor.C04_total_order`
* `Verif.Cbor.C05_destructure`
* `Verif.Crypto.Aes.aes256_cbc_roundtrip`
* `Verif.Crypto.Aes.aes_decrypt_encrypt`
* `Verif.Crypto.Aes.aes_encrypt_injective`
* `Verif.Crypto.Aes.aes_encrypt_length`
* `Verif.Crypto.Aes.aes_is_fips197`
* `Verif.Crypto.Sha.pad_wf`
* `Verif.Crypto.aesCbcDecrypt_no_panic`
* `Verif.Ctap.C10_guess_bound`
* `Verif.Ctap.C12_token_only_for_pin`
* `Verif.Ctap.C15_pin_policy`
* `Verif.Ctap.C15_stored_pin_good`
* `Verif.Ctap.C17_enforced_partial`
* `Verif.Ctap.C18_success`
* `Verif.Ctap.C18_window`
* `Verif.Ctap.C19_atomic`
* `Verif.Ctap.C19_erased`
* `Verif.Ctap.C20_next`
* `Verif.Ctap.C21_next`
* `Verif.Ctap.C22_discoverable`
* `Verif.Ctap.C22_discoverable_refused`
* `Verif.Ctap.C22_listed`
* `Verif.Ctap.C22_listed_refused`
* `Verif.Ctap.C22_next`
* `Verif.Ctap.C22_u2f`
* `Verif.Ctap.C23_excluded`
* `Verif.Ctap.C23_not_excluded`
* `Verif.Ctap.C23_not_excluded`
* `Verif.Ctap.C24_full_refused`
* `Verif.Ctap.C24_registered`
* `Verif.Ctap.C24_registration_effect`
* `Verif.Ctap.C24_unique_and_bounded`
* `Verif.Ctap.C25_enumeration`
* `Verif.Ctap.C25_interrupted`
* `Verif.Ctap.C27_bounded`
* `Verif.Ctap.C27_increases_partial`
* `Verif.Ctap.C28_token_needs_long_pin`
* `Verif.Ctap.C30_continued`
* `Verif.Ctap.C31_credentials`
* `Verif.Ctap.C31_relying_parties`
* `Verif.Ctap.C32_changes`
* `Verif.Ctap.C32_failed`
* `Verif.Ctap.C32_intact`
* `Verif.Ctap.C33_answered`
* `Verif.Ctap.C33_complete`
* `Verif.Ctap.C33_read`
* `Verif.Ctap.C33_reading`
* `Verif.Ctap.C34_sealed`
* `Verif.Ctap.C34_u2f`
* `Verif.Ctap.C34_u2f_known`
* `Verif.Ctap.C34_u2f_usable`
* `Verif.Ctap.C34_usable`
* `Verif.Ctap.C35_assertion`
* `Verif.Ctap.C35_one_relying_party`
* `Verif.Ctap.C35_u2f`
* `Verif.Ctap.C35_unwrap`
* `Verif.Ctap.C53_apdu`
* `Verif.Ctap.C53_request`
* `Verif.Ctap.C54_answered`
* `Verif.Ctap.C54_no_panic`
* `Verif.Ctap.C54_tock_partial`
* `Verif.Ctap.C55_stored`
* `Verif.Ctap.C55_truncate`
* `Verif.Ctap.C56_change_pin`
* `Verif.Ctap.C56_set_pin`
* `Verif.Ctap.C68_kept`
* `Verif.Ctap.C68_kept_key`
* `Verif.Ctap.C68_origin`
* `Verif.Ctap.C68_usable`
* `Verif.Ctap.C71_discoverable`
* `Verif.Ctap.C71_listed`
* `Verif.Ctap.C71_sealed`
* `Verif.Ctap.C71_stored`
* `Verif.Ctap.C72_change`
* `Verif.Ctap.C72_kept`
* `Verif.Ctap.C72_login`
* `Verif.Ctap.C72_set`
* `Verif.Ctap.C72_token`
* `Verif.Ctap.C73_registered`
* `Verif.Ctap.C73_sealed`
* `Verif.Ctap.C73_stored`
* `Verif.Ctap.C74_answer`
* `Verif.Ctap.C74_decodes`
* `Verif.Ctap.C74_status`
* `Verif.Ctap.C75_answered`
* `Verif.Ctap.C75_contents`
* `Verif.Ctap.C75_full`
* `Verif.Ctap.C75_limits`
* `Verif.Ctap.C75_pin`
* `Verif.Ctap.C75_register`
* `Verif.Ctap.C75_set_pin`
* `Verif.Ctap.C75_verification`
* `Verif.Ctap.C77_expressible`
* `Verif.Ctap.C77_one_meaning`
* `Verif.Ctap.C77_same`
* `Verif.Ctap.C77_understood`
* `Verif.Ctap.C78_accepted_partial`
* `Verif.Ctap.C78_exact_partial`
* `Verif.Ctap.C78_false_usize32`
* `Verif.Ctap.C78_refused`
* `Verif.Ctap.C78_rephrased`
* `Verif.Ctap.C79_format`
* `Verif.Ctap.C79_one_meaning`
* `Verif.Ctap.C80_assertion`
* `Verif.Ctap.C80_next`
* `Verif.Ctap.C80_one_meaning`
* `Verif.Ctap.C80_registration`
* `Verif.Ctap.C81_stored`
* `Verif.Ctap.C81_wrapped`
* `Verif.Ctap.C82_off`
* `Verif.Ctap.C82_switched`
* `Verif.Ctap.C88_boot`
* `Verif.Ctap.C88_equal`
* `Verif.Ctap.C88_other_parties`
* `Verif.Ctap.C88_protected`
* `Verif.Ctap.C88_session`
* `Verif.Ctap.C88_step`
* `Verif.Ctap.C88_unlisted`
* `Verif.Ctap.C89_right_guess`
* `Verif.Ctap.C89_secret`
* `Verif.Ctap.C89_told_apart`
* `Verif.Device.C69_listed`
* `Verif.Device.C69_registration`
* `Verif.Device.C69_sealed`
* `Verif.Device.C69_stored`
* `Verif.Device.C69_u2f`
* `Verif.Device.C83_registration`
* `Verif.Device.C83_sealed`
* `Verif.Device.C83_stored`
* `Verif.Device.C83_usb_registration`
* `Verif.Device.C83_usb_sealed`
* `Verif.Device.C83_usb_stored`
* `Verif.Device.C87_usb`
* `Verif.Device.C91_accepted_partial`
* `Verif.Device.C91_signature_partial`
* `Verif.Device.C91_started_partial`
* `Verif.Disk.C76_call`
* `Verif.Disk.C76_history`
* `Verif.Disk.C76_lost`
* `Verif.Disk.C76_new`
* `Verif.Disk.C76_reads`
* `Verif.Hid.C06_roundtrip`
* `Verif.Hid.C06_seq_no_overflow`
* `Verif.Hid.C07_isolation`
* `Verif.Hid.C08_only_allocated`
* `Verif.Hid.C08_unique_ids`
* `Verif.Hid.C09_exclusive`
* `Verif.Hid.C09_mutual_exclusion`
* `Verif.Main.C84_sends`
* `Verif.Main.C84_takes`
* `Verif.Main.C94_any_history_partial`
* `Verif.Main.C95_cancel_partial`
* `Verif.Main.C95_ignored_partial`
* `Verif.Main.C95_keepalive_partial`
* `Verif.Main.C95_next_partial`
* `Verif.P256.C40_bytes`
* `Verif.P256.C40_conversion`
* `Verif.P256.C40_integers`
* `Verif.P256.C40_inverse`
* `Verif.P256.C40_modular`
* `Verif.P256.C40_montgomery`
* `Verif.P256.C40_shifts`
* `Verif.P256.C60_base`
* `Verif.P256.C60_complete`
* `Verif.P256.C60_group`
* `Verif.P256.C60_mul`
* `Verif.P256.C60_sum`
* `Verif.P256.C61_attempt`
* `Verif.P256.C61_public`
* `Verif.P256.C61_signature`
* `Verif.P256.C62_round_trip_partial`
* `Verif.P256.C62_verify_partial`
* `Verif.P256.C62_zero_exact`
* `Verif.P256.C62_zero_hash`
* `Verif.P256.C63_agreement`
* `Verif.P256.C63_shared`
* `Verif.P256.C64_coordinates`
* `Verif.P256.C64_own`
* `Verif.P256.C64_rejected`
* `Verif.P256.C64_uncompressed`
* `Verif.P256.C65_der`
* `Verif.P256.C65_der_unique`
* `Verif.P256.C65_secret`
* `Verif.P256.C65_signature`
* `Verif.P256.C66_deviation`
* `Verif.P256.C66_first_partial`
* `Verif.P256.C66_sha256_partial`
* `Verif.P256.C67_generate`
* `Verif.P256.C67_uniform`
* `Verif.Store.C44_err`
* `Verif.Store.C44_history`
* `Verif.Store.C44_new`
* `Verif.Store.C44_ok`
* `Verif.Store.C44_reads`
* `Verif.Store.C45_atomic`
* `Verif.Store.C45_open`
* `Verif.Store.C45_reopen`
* `Verif.Store.C46_succeeds`
* `Verif.Store.C47_delete`
* `Verif.Store.C47_held_or_invalid`
* `Verif.Store.C47_invalid`
* `Verif.Store.C47_range_keys`
* `Verif.Store.C47_read`
* `Verif.Store.C47_read_range`
* `Verif.Store.C47_write`
* `Verif.Store.C47_write_atomic`
* `Verif.Store.C47_write_err`
* `Verif.Store.C48_atomic`
* `Verif.Store.C48_err`
* `Verif.Store.C48_history`
* `Verif.Store.C48_ok`
* `Verif.Store.C48_read`
* `Verif.Store.C48_read_any`
* `Verif.Store.Linear.C86_aligned`
* `Verif.Store.Linear.C86_content_partial`
* `Verif.Store.Linear.C86_reads_partial`
* `Verif.Store.Linear.C86_succeeds_partial`
* `Verif.Store.compact_decodes`
* `Verif.Store.compact_interrupted`
* `Verif.Store.delete_interrupted`
* `Verif.Store.entry_decodes`
* `Verif.Store.entry_words_distinct`
* `Verif.Store.init_decodes`
* `Verif.Store.init_interrupted`
* `Verif.Store.internal_decodes`
* `Verif.Store.internal_interrupted`
* `Verif.Store.padding_interrupted`
* `Verif.Store.position_fits`
* `Verif.Store.position_ordered`
* `Verif.Store.user_decodes`
* `Verif.Store.user_interrupted`
* `Verif.Tock.C49_aligned`
* `Verif.Tock.C49_append`
* `Verif.Tock.C49_append_iff`
* `Verif.Tock.C49_contains`
* `Verif.Tock.C49_find_address`
* `Verif.Tock.C49_find_slice`
* `Verif.Tock.C49_intersects_if`
* `Verif.Tock.C49_intersects_partial`
* `Verif.Tock.C49_length`
* `Verif.Tock.C49_pages`
* `Verif.Tock.C49_partition`
* `Verif.Tock.C49_partition_append`
* `Verif.Tock.C49_ranges_from`
* `Verif.Tock.C50_boot`
* `Verif.Tock.C50_images`
* `Verif.Tock.C50_none`
* `Verif.Tock.C51_accepts`
* `Verif.Tock.C51_command`
* `Verif.Tock.C51_confined`
* `Verif.Tock.C51_history`
* `Verif.Tock.C51_last`
* `Verif.Tock.C51_metadata`
* `Verif.Tock.C51_request`
* `Verif.Tock.C51_torn`
* `Verif.Tock.C52_not_late`
* `Verif.Tock.C52_ticks`
* `Verif.Tock.C52_timer_partial`
* `Verif.Tock.C58_authentic`
* `Verif.Tock.C58_no_rollback`
* `Verif.Tock.C59_distinct`
* `Verif.Tock.C59_erase`
* `Verif.Tock.C59_erase_only`
* `Verif.Tock.C59_exists`
* `Verif.Tock.C59_read`
* `Verif.Tock.C59_write`
* `Verif.Tock.C59_write_aligned`
* `Verif.Tock.C59_write_only`
* `Verif.Tock.C90_install`
* `Verif.Tock.C90_retry`
* `Verif.Tock.C90_same_version`
* `Verif.Tock.C90_started`
* `Verif.Tock.C96_confined_partial`
* `Verif.Tock.C96_erase`
* `Verif.Tock.C96_escape`
* `Verif.Tock.C96_install`
* `Verif.Tock.C96_resume`
* `Verif.Tock.C96_served`
* `Verif.Tock.C96_storage_erase`
* `Verif.Tock.C96_storage_write`
* `Verif.Tock.C96_upgrade`
* `Verif.Tock.C96_upgrade_stuck`
* `Verif.Tock.C96_write`
* `Verif.Tock.Presence.C85_panic`
* `Verif.Tock.Presence.C85_pressed`
* `Verif.Tock.Presence.C85_timeout`
* `Verif.Usb.C70_answers`
* `Verif.Usb.C70_exchange`
* `Verif.Usb.C70_executed`
* `Verif.Usb.C70_wink`
* `Verif.Usb.Kernel.C93_no_panic_partial`
* `Verif.Usb.Kernel.C93_served_partial`
* `Verif.Usb.Kernel.C93_transmit_or_receive_partial`
* `Verif.Usb.Kernel.C93_transmit_partial`
* `Verif.Usb.Kernel.C93_turns_partial`
* `Verif.Usb.Kernel.C94_history_partial`
* `Verif.Usb.Kernel.C94_kind`
* `Verif.Usb.Kernel.C94_no_panic_partial`
* `Verif.Usb.Kernel.C94_send_partial`
* `Verif.Usb.Kernel.C94_sent_partial`

## Quot.sound, propext

* `Verif.Cbor.C02_false_usize32`
* `Verif.Crypto.Sha.hkdf_empty_salt_is_rfc5869`
* `Verif.Crypto.Sha.hkdf_is_rfc5869`
* `Verif.Crypto.Sha.hmac_is_rfc2104`
* `Verif.Crypto.Sha.hmac_verify`
* `Verif.Crypto.Sha.sha256_hash`
* `Verif.Crypto.Sha.sha256_streaming`
* `Verif.Crypto.aesCbc_wrapper_roundtrip`
* `Verif.Crypto.cbc_is_cbc_mode`
* `Verif.Crypto.cbc_roundtrip`
* `Verif.Ctap.C11_retries_frozen_partial`
* `Verif.Ctap.C11_three_wrong_pins_partial`
* `Verif.Ctap.C13_token_rights`
* `Verif.Ctap.C14_issued_for`
* `Verif.Ctap.C14_used_for`
* `Verif.Ctap.C15_boot`
* `Verif.Ctap.C16_one_touch`
* `Verif.Ctap.C16_touched`
* `Verif.Ctap.C16_uses`
* `Verif.Ctap.C20_assertion`
* `Verif.Ctap.C20_registration`
* `Verif.Ctap.C21_assertion`
* `Verif.Ctap.C21_registration`
* `Verif.Ctap.C26_assertion`
* `Verif.Ctap.C26_registration`
* `Verif.Ctap.C26_u2f`
* `Verif.Ctap.C28_min_length_monotone`
* `Verif.Ctap.C28_set_min_length`
* `Verif.Ctap.C29_refused_no_change_partial`
* `Verif.Ctap.C30_authorised`
* `Verif.Ctap.C30_relying_party`
* `Verif.Ctap.C32_initial`
* `Verif.Ctap.C34_stored`
* `Verif.Ctap.C54_empty_panics`
* `Verif.Ctap.C56_hmac_secret`
* `Verif.Ctap.C56_hmac_secret_next`
* `Verif.Ctap.C56_wrong_pin_new_key`
* `Verif.Ctap.C57_input`
* `Verif.Ctap.C57_once`
* `Verif.Ctap.C57_programmed`
* `Verif.Ctap.C82_asked`
* `Verif.Ctap.C82_certificate`
* `Verif.Ctap.C89_session`
* `Verif.Ctap.C89_step`
* `Verif.Ctap.Toy.C11_malformed_bypass`
* `Verif.Ctap.Toy.C11_read_failure_bypass`
* `Verif.Ctap.Toy.C17_false`
* `Verif.Ctap.Toy.C27_false`
* `Verif.Ctap.Toy.C29_false`
* `Verif.Hid.C06_split_shape`
* `Verif.Hid.C07_foreign_no_effect`
* `Verif.Hid.C08_wraps_after_2_32`
* `Verif.Hid.C09_origin_and_expiry`
* `Verif.Hid.C09_released_after_expiry`
* `Verif.Main.C84_answered`
* `Verif.Main.C84_device`
* `Verif.Main.C84_goes_on`
* `Verif.Main.C84_leds`
* `Verif.Main.C84_order`
* `Verif.Main.C84_silent`
* `Verif.Main.C84_touch`
* `Verif.Store.Linear.C86_worn`
* `Verif.Store.position_bijective`
* `Verif.Store.position_distance`
* `Verif.Tock.C49_empty_intersects`
* `Verif.Tock.C51_no_panic`
* `Verif.Tock.C52_early`
* `Verif.Tock.C52_early_bound`
* `Verif.Tock.C52_time`
* `Verif.Tock.C59_bounds`
* `Verif.Tock.C59_images`
* `Verif.Tock.C92_bootloader`
* `Verif.Tock.C92_empty_piece`
* `Verif.Tock.C92_hash`
* `Verif.Tock.C92_reuse`
* `Verif.Tock.C96_fail`
* `Verif.Tock.C96_stuck`
* `Verif.Tock.C96_too_long`
* `Verif.Tock.Presence.C85_outcome_partial`
* `Verif.Usb.C70_boot`
* `Verif.Usb.C70_cancel`
* `Verif.Usb.C70_channel`
* `Verif.Usb.C70_commands`
* `Verif.Usb.Kernel.C93_received`
* `Verif.Usb.Kernel.C93_sent`

## none

* `Verif.Store.C48_empty`

## propext

* `Verif.Crypto.Aes.sbox_is_fips`
* `Verif.Crypto.Sha.sha_constants`
* `Verif.Main.C84_keepalive`
* `Verif.Main.C95_lost`
* `Verif.Main.C95_other_interface`
* `Verif.Tock.Presence.C85_race`
* `Verif.Usb.Kernel.C93_host_cancels`
* `Verif.Usb.Kernel.C93_keepalive`
* `Verif.Usb.Kernel.C93_late_host`
* `Verif.Usb.Kernel.C93_other_endpoint`
* `Verif.Usb.Kernel.C94_lost`
* `Verif.Usb.Kernel.C94_panic`
* `Verif.Usb.Kernel.C94_wrong_confirmation`
