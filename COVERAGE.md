# Functions of the code and the model

Generated by `scripts/coverage.py` from the citations in the comments of the model. A function is listed as
modelled if a cited range of lines meets it. Functions and files only compiled for tests, and
`rust_crypto.rs` (an alternative to `software_crypto.rs` that the firmware does not use), are left out.

631 of 990 functions.

| File | Modelled | Not modelled |
|---|---|---|
| `boards/nordic/nrf52840dk_opensk/src/main.rs` | 1: filter_syscall | with_driver, get_peripherals, syscall_driver_lookup, syscall_filter, process_fault, scheduler, scheduler_timer, watchdog, context_switch_callback, main |
| `boards/nordic/nrf52840dk_opensk_a/build.rs` | 1: main | – |
| `boards/nordic/nrf52840dk_opensk_b/build.rs` | 1: main | – |
| `bootloader/src/crypto_cell.rs` | 4: new, clear_data, update, finalize_and_clear | enable, disable |
| `bootloader/src/main.rs` | 4: from, read_version, compute_upgrade_hash, main | read_page, boot |
| `bootloader/src/static_ref.rs` | – | new, clone, deref |
| `libraries/cbor/src/macros.rs` | 1: destructure_cbor_map_peek_value | – |
| `libraries/cbor/src/reader.rs` | 9: read_nested, decode_complete_data_item, read_bytes, read_variadic_length_integer, read_byte_string_content, read_text_string_content, read_array_content, read_map_content, decode_to_simple_value | read, new, decode_value_to_unsigned, decode_value_to_negative, read_tagged_content |
| `libraries/cbor/src/values.rs` | 5: map, type_label, cmp, eq, from_integer | unsigned, integer, byte_string, text_string, array, tag, bool_value, null_value, undefined, extract_unsigned, extract_integer, extract_byte_string, extract_text_string, extract_array, extract_map, extract_tag, extract_bool, extract_null, extract_undefined, partial_cmp, from, from, from, from, from, from, from, from, from, from, from, from, from, from, from, from, into_cbor_value, into_cbor_value_option, into_cbor_value_option |
| `libraries/cbor/src/writer.rs` | 3: write_nested, encode_cbor, start_item | write, new |
| `libraries/crypto/src/aes256.rs` | 24: new, encrypt_block, new, decrypt_block, rotword, subword, xorword, aes_enc, aes_dec, aes_enc_last, aes_dec_last, add_round_key, sub_bytes, inv_sub_bytes, shift_rows, inv_shift_rows, mul2, mul3, mix_columns, mul9, mul11, mul13, mul14, inv_mix_columns | – |
| `libraries/crypto/src/cbc.rs` | 2: cbc_encrypt, cbc_decrypt | – |
| `libraries/crypto/src/ec/exponent256.rs` | 9: from_int_checked, modn, non_zero, mul_top, mul, gen_uniform, from_int_checked, inv, mul | conditional_select, bit, to_int, is_zero, conditional_select, to_int, as_exponent |
| `libraries/crypto/src/ec/gfp256.rs` | 6: from_int_checked, mul_top, is_valid_point_vartime, add_vartime, sub_vartime, mul | to_int, is_zero, fmt |
| `libraries/crypto/src/ec/int256.rs` | 22: gen_uniform_256, from_bin, to_bin, to_minimal_encoding, digit, bit, is_zero, shl, shr, modd, add_conditional, sub_conditional, modadd_vartime, modsub_vartime, modmul, modmul_top, sub_top, modpow, ct_lt, add, add, sub | conditional_select, add_assign, sub_assign, fmt |
| `libraries/crypto/src/ec/montgomery.rs` | 16: field_to_montgomery, montgomery_to_field, get64, square, inv, mul_scalar2, mul_scalar3, mul_scalar4, reduce_carry, reduce_degree, propagate_carry, eliminate_terms, compact_limbs, add, sub, mul | conditional_select, new, mul_scalar8, is_zero_vartime, reduced_vartime |
| `libraries/crypto/src/ec/point.rs` | 17: from_bytes_uncompressed_vartime, new_checked_vartime, from_projective, from_affine, to_affine, base_point_mul, mul, points_mul, from_affine, to_affine, select_point, add_mixed, double, scalar_base_mul, select_point, scalar_mul, add | getx, gety, conditional_select, fmt, eq |
| `libraries/crypto/src/ecdh.rs` | 7: gensk, genpk, exchange_raw, exchange_x, from_bytes, from_coordinates, to_coordinates | – |
| `libraries/crypto/src/ecdsa.rs` | 15: gensk, genpk, sign_rng, sign_rfc6979, try_sign, to_bytes, to_asn1_der, to_bytes, from_coordinates, from_bytes_uncompressed, to_coordinates, verify_hash_vartime, verify_vartime, new, next | – |
| `libraries/crypto/src/hkdf.rs` | 2: hkdf_256, hkdf_empty_salt_256 | – |
| `libraries/crypto/src/hmac.rs` | 4: verify_hmac_256, verify_hmac_256_first_128bits, software_hmac_256, xor_pads | hmac_256 |
| `libraries/crypto/src/lib.rs` | 4: hash, hash_mut, hmac, hmac_mut | – |
| `libraries/crypto/src/sha256.rs` | 10: new, update, finalize, hash_block, choice, majority, bsig0, bsig1, ssig0, ssig1 | drop |
| `libraries/crypto/src/util.rs` | 1: xor_block_16 | – |
| `libraries/opensk/src/api/attestation_store.rs` | 3: helper_get, helper_set, from | – |
| `libraries/opensk/src/api/connection.rs` | 1: try_from | – |
| `libraries/opensk/src/api/crypto/hkdf256.rs` | – | hkdf_empty_salt_256 |
| `libraries/opensk/src/api/crypto/sha256.rs` | – | digest, digest_mut |
| `libraries/opensk/src/api/crypto/software_crypto.rs` | 8: public_key, from_coordinates, from_slice, sign, from_coordinates, new, encrypt_block, decrypt_block | random, diffie_hellman, to_coordinates, raw_secret_bytes, random, public_key, to_slice, verify, verify_prehash, to_coordinates, from_slice, to_slice, to_der, new, update, finalize, mac, verify, verify_truncated_left, hkdf_256, encrypt_cbc, decrypt_cbc |
| `libraries/opensk/src/api/customization.rs` | – | aaguid, allows_pin_protocol_v1, default_cred_protect, default_min_pin_length, default_min_pin_length_rp_ids, enforce_always_uv, enterprise_attestation_mode, is_enterprise_rp_id, max_msg_size, max_pin_retries, use_batch_attestation, use_signature_counter, max_cred_blob_length, max_credential_count_in_list, max_large_blob_array_size, max_rp_ids_length, max_supported_resident_keys |
| `libraries/opensk/src/api/key_store.rs` | 10: init, wrap_credential, unwrap_credential, cred_random, encrypt_pin_hash, reset, get_master_keys, add_padding, remove_padding, decrypt_cbor_credential_id | from, wrap_key, decrypt_pin_hash, from, extract_byte_string, extract_map |
| `libraries/opensk/src/api/private_key.rs` | 6: new, new_ecdsa, ecdsa_key, get_pub_key, to_cbor, from_cbor | new_ecdsa_from_bytes, new_ed25519_from_bytes, sign_and_encode, signature_algorithm, to_bytes, ecdsa_key_from_bytes |
| `libraries/opensk/src/api/rng.rs` | – | gen_uniform_u8x32 |
| `libraries/opensk/src/ctap/apdu.rs` | 1: try_from | from, from, from |
| `libraries/opensk/src/ctap/client_pin.rs` | 24: decrypt_pin, check_and_store_new_pin, new, get_pin_protocol, get_shared_secret, verify_pin_hash_enc, process_get_pin_retries, process_get_key_agreement, process_set_pin, process_change_pin, process_get_pin_token, process_get_pin_uv_auth_token_using_pin_with_permissions, process_command, verify_pin_uv_auth_token, reset, process_hmac_secret, clear_token_flags, update_timeouts, check_user_verified_flag, has_permission, has_no_rp_id_permission, has_no_or_rp_id_permission, has_no_or_rp_id_hash_permission, ensure_rp_id_permission | get_mut_pin_protocol, process_get_pin_uv_auth_token_using_uv_with_permissions, process_get_uv_retries |
| `libraries/opensk/src/ctap/command.rs` | 7: deserialize, try_from, try_from, try_from, try_from, try_from, try_from | – |
| `libraries/opensk/src/ctap/config_command.rs` | 3: process_enable_enterprise_attestation, process_set_min_pin_length, process_config | process_toggle_always_uv |
| `libraries/opensk/src/ctap/credential_management.rs` | 12: get_stored_rp_ids, enumerate_rps_response, enumerate_credentials_response, check_rp_id_permissions, process_get_creds_metadata, process_enumerate_rps_begin, process_enumerate_rps_get_next_rp, process_enumerate_credentials_begin, process_enumerate_credentials_get_next_credential, process_delete_credential, process_update_user_information, process_credential_management | – |
| `libraries/opensk/src/ctap/crypto_wrapper.rs` | 2: aes256_cbc_encrypt, aes256_cbc_decrypt | – |
| `libraries/opensk/src/ctap/ctap1.rs` | 6: try_from, try_from, to_uncompressed, process_command, process_register, process_authenticate | from |
| `libraries/opensk/src/ctap/data_formats.rs` | 44: try_from, from, try_from, from, from, try_from, from, try_from, try_from, from, try_from, try_from, try_from, try_from, default, try_from, from, from, try_from, is_discoverable, to_cbor, from_cbor, from_ecdh_public_key, try_into_ecdh_coordinates, try_from, from, try_from, try_from, try_from, try_from, from, try_from, try_from, try_from, from, ok_or_cbor_type, extract_unsigned, extract_integer, extract_byte_string, extract_text_string, extract_array, extract_map, extract_bool, ok_or_missing | try_from, from, from, from, try_from, from, from_ecdsa_public_key, from, from, from, from, from |
| `libraries/opensk/src/ctap/hid/mod.rs` | 12: from, new, locked_channel, has_channel_lock, parse_packet, preprocess_message, has_valid_channel, is_allocated_channel, error_message, process_single_packet, split_message, keepalive | – |
| `libraries/opensk/src/ctap/hid/receive.rs` | 5: default, reset, parse_packet, parse_init_packet, append_payload | – |
| `libraries/opensk/src/ctap/hid/send.rs` | 7: new, has_data, next, new, consume_data, finished, next | none |
| `libraries/opensk/src/ctap/large_blobs.rs` | 2: new, process_command | – |
| `libraries/opensk/src/ctap/main_hid.rs` | 6: default, process_hid_packet, process_message, should_wink, ctap1_error_message, ctap1_success_message | has_channel_lock |
| `libraries/opensk/src/ctap/mod.rs` | 37: get_preferred_cred_param, cbor_read, cbor_write, filter_listed_credential, filter_listed_resident_credential, to_public_source, truncate_to_char_boundary, send_keepalive_up_needed, check_user_presence, new_reset, clear, clear_old_channels, clear_timer, get_command, set_command, next_assertion_credential, next_enumerate_rp, next_enumerate_credential, new, increment_global_signature_counter, clear_other_channels, process_command, process_parsed_command, process_fido_command, process_vendor_command, pin_uv_auth_precheck, process_make_credential, generate_cred_random, assertion_response, get_any_credential_from_allow_list, process_get_assertion, process_get_next_assertion, process_get_info, process_reset, process_selection, generate_auth_data, u2f_grant_user_presence | hid_connection, allows_ctap1, u2f_needs_user_presence |
| `libraries/opensk/src/ctap/pin_protocol.rs` | 12: new, regenerate, reset_pin_uv_auth_token, decapsulate, new, encrypt, decrypt, verify, verify_v1, verify_v2, encrypt, decrypt | get_public_key, get_pin_uv_auth_token, new, verify, new, encrypt, decrypt, verify |
| `libraries/opensk/src/ctap/response.rs` | 6: from, from, from, from, from, from | from |
| `libraries/opensk/src/ctap/secret.rs` | – | from_exposed_secret, new, expose_secret_to_vec, default, drop, deref, deref_mut |
| `libraries/opensk/src/ctap/status_code.rs` | 3: from, from, from | – |
| `libraries/opensk/src/ctap/storage.rs` | 39: init, get_credential, find_credential_item, find_credential, store_credential, delete_credential, update_credential, count_credentials, remaining_credentials, iter_credentials, new_creation_order, global_signature_counter, incr_global_signature_counter, pin_properties, pin_hash, pin_code_point_length, set_pin, pin_retries, decr_pin_retries, reset_pin_retries, min_pin_length, set_min_pin_length, min_pin_length_rp_ids, set_min_pin_length_rp_ids, get_large_blob_array, commit_large_blob_array, reset, has_force_pin_change, force_pin_change, enterprise_attestation, enable_enterprise_attestation, has_always_uv, toggle_always_uv, from, next, deserialize_credential, serialize_credential, deserialize_min_pin_length_rp_ids, serialize_min_pin_length_rp_ids | enterprise_attestation, new, unwrap |
| `libraries/opensk/src/ctap/token_state.rs` | 7: new, has_permission, begin_using_pin_uv_auth_token, pin_uv_auth_token_usage_timer_observer, clear_user_verified_flag, clear_pin_uv_auth_token_permissions_except_lbw, stop_using_pin_uv_auth_token | is_in_use, has_no_permissions_rp_id, has_permissions_rp_id, has_permissions_rp_id_hash, set_permissions, set_permissions_rp_id, set_default_permissions, get_user_verified_flag_value |
| `libraries/opensk/src/ctap/u2f_up.rs` | 4: new, grant_up, consume_up, is_up_needed | – |
| `libraries/opensk/src/ctap/vendor_hid.rs` | 3: default, process_hid_packet, process_message | has_channel_lock |
| `libraries/opensk/src/env/mod.rs` | 1: firmware_version | process_vendor_command |
| `libraries/opensk/src/lib.rs` | 4: new, process_hid_packet, should_wink, u2f_grant_user_presence | state, hid, env, u2f_needs_user_presence |
| `libraries/persistent_store/src/buffer.rs` | 6: new, incr_page_erases, incr_word_writes, read_slice, write_slice, erase_page | arm_interruption, disarm_interruption, reset_interruption, corrupt_operation, get_word_writes, get_page_erases, set_page_erases, is_word_aligned, is_page_aligned, operation_range, word_size, page_size, num_pages, max_word_writes, max_page_erases, fmt, to_owned, arm, get, tick |
| `libraries/persistent_store/src/concat.rs` | 4: read, write, delete, find | – |
| `libraries/persistent_store/src/format.rs` | 32: from_slice, as_slice, is_storage_supported, virt_page_size, max_value_len, max_prefix_len, window_size, virt_size, total_capacity, total_lifetime, page_head, parse_init, build_init, parse_compact, build_compact, build_internal, parse_word, build_user, set_padding, transaction_capacity, update_capacity, entry_size, transaction_valid, bytes_to_words, new, index, page_begin, next_page, cycle, page, word, check | new, word_size, page_size, num_pages, max_page, max_page_erases, max_key, max_updates, index_init, index_compact, set_deleted, add, sub, add_assign, get, is_erased, div_ceil |
| `libraries/persistent_store/src/format/bitfield.rs` | 8: get, set, mask, get, set, get, set, count_zeros | check, set, num_bits |
| `libraries/persistent_store/src/fragment.rs` | 8: len, pos, key, read, read_range, write, delete, get_handles | – |
| `libraries/persistent_store/src/lib.rs` | – | usize_to_nat |
| `libraries/persistent_store/src/linear.rs` | 9: length, read, write, erase, write_within, write_unaligned, erase_within, save_complement, restore_complement | – |
| `libraries/persistent_store/src/storage.rs` | 2: is_valid, range | – |
| `libraries/persistent_store/src/store.rs` | 53: or_invalid, remaining, key, new, iter, capacity, lifetime, transaction, clear, prepare, recover, find, find_handle, insert, remove, get_length, get_value, recover_initialize, recover_erase, recover_compaction, recover_operation, recover_transaction, recover_transaction_keys, recover_wipe_partial, recover_delete_user, check_handle, reserve, insert_init, compact, compact_copy, compact_erase, transaction_apply, clear_delete, delete_keys, delete_if, delete_pos, init_page, set_padding, set_deleted, wipe_span, get_extremum_page_head, immediate_capacity, tail, push_entry, remove_entry, parse_entry, parse_partial, read_slice, read_word, write_slice, storage_write_slice, storage_erase_page, is_write_needed | from, used, total, get_key, get_length, get_value, value, extract_storage, remove_handle, max_value_length, parse_init, parse_compact, parse_word, read_page, storage_read_slice |
| `src/env/tock/buffer_upgrade_storage.rs` | – | new, write_bundle, bundle_identifier, running_firmware_version |
| `src/env/tock/clock.rs` | 4: add_ticks, tickle, make_timer, is_elapsed | default, timestamp_us |
| `src/env/tock/commands.rs` | 8: process_vendor_command, process_cbor, encode_cbor, process_vendor_configure, process_vendor_upgrade, try_from, try_from, try_from | process_vendor_upgrade_info, from, from |
| `src/env/tock/mod.rs` | 5: send_and_maybe_recv, wait_with_timeout, blink_leds, wink_leds, switch_off_leds | default, next_u32, next_u64, fill_bytes, try_fill_bytes, default, upgrade_storage, disable_upgrade_storage, lock_firmware_protection, take_storage, check_init, check_complete, get, set, rng, user_presence, store, key_store, attestation_store, clock, write, customization, main_hid_connection, vendor_hid_connection, process_vendor_command, firmware_version |
| `src/env/tock/phantom_buffer_storage.rs` | – | new, arm_interruption, disarm_interruption, reset_interruption, corrupt_operation, get_word_writes, get_page_erases, set_page_erases, word_size, page_size, num_pages, max_word_writes, max_page_erases, read_slice, write_slice, erase_page |
| `src/env/tock/storage.rs` | 17: read_slice, new, is_word_aligned, is_page_aligned, word_size, page_size, num_pages, max_word_writes, max_page_erases, read_slice, write_slice, erase_page, new, contains_metadata, check_partition_hash, write_bundle, running_firmware_version | to_storage_result, is_page_aligned, bundle_identifier |
| `src/env/tock/storage_helper.rs` | 13: find_slice, is_aligned, new_empty, is_empty, append, starts_inside, intersects_range, contains_range, aligned_iter, length, append, find_address, ranges_from | new, start, length |
| `src/env/tock/upgrade_helper.rs` | 4: check_metadata, parse_metadata_hash, parse_metadata_version, verify_signature | – |
| `src/main.rs` | 4: new, next_packet, clear, main | new, print_packet_notice |
| `third_party/libtock-drivers/src/storage.rs` | 3: block_command, write_slice, erase_page | try_from, get_info, memop, word_size, page_size, max_word_writes, max_page_erases, storage_cnt, storage_ptr, storage_len, storage_type |
| `third_party/libtock-drivers/src/timer.rs` | 1: stop_alarm | with_callback, upcall, init, enable, default, new, get_ticks, clock_frequency, get_current_counter_ticks, set_alarm, new, num_ticks, scale_int, ms, ms_f64, wrapping_add, wrapping_sub, from_ms, ms, sub, from_ms, ms, from_clock_value, from_clock_value, sub, add, add_assign |
| `third_party/libtock-drivers/src/usb_ctap_hid.rs` | 6: recv_with_timeout, send, send_or_recv_with_timeout, recv_with_timeout_detail, send_detail, send_or_recv_with_timeout_detail | upcall, register_listener, unregister_listener, setup |
| `third_party/libtock-drivers/src/util.rs` | 1: yieldk_for | – |
