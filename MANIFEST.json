{
 "claims": [
  {
   "property": "C01",
   "status": "proved",
   "theorems": [
    "Bit.C01_b58_roundtrip",
    "Bit.C01_b58_roundtrip_iff",
    "Bit.C01_b58_value"
   ],
   "note": "The exception for all-zero byte strings is part of the statement and of the theorem."
  },
  {
   "property": "C02",
   "status": "proved",
   "theorems": [
    "Bit.C02_b58decode_domain",
    "Bit.C02_b58decode_value",
    "Bit.C02_b58_canonical",
    "Bit.C02_b58decode_injective"
   ],
   "note": ""
  },
  {
   "property": "C03",
   "status": "proved",
   "theorems": [
    "Bit.C03_b58check_accepts_iff",
    "Bit.C03_b58check_refuses",
    "Bit.C03_b58check_roundtrip",
    "Bit.C03_b58check_canonical"
   ],
   "note": ""
  },
  {
   "property": "C04",
   "status": "proved",
   "theorems": [
    "Bit.C04_wif_roundtrip",
    "Bit.C04_wif_injective"
   ],
   "note": ""
  },
  {
   "property": "C05",
   "status": "proved",
   "theorems": [
    "Bit.C05_wif_import_exact",
    "Bit.C05_wif_accepts_iff",
    "Bit.C05_checksum_check_iff",
    "Bit.C05_length_33_misread"
   ],
   "note": ""
  },
  {
   "property": "C06",
   "status": "proved",
   "theorems": [
    "Bit.C06_bech32_roundtrip",
    "Bit.C06_bech32_canonical",
    "Bit.C06_bech32_encode_format",
    "Bit.C06_bech32_decode_format"
   ],
   "note": ""
  },
  {
   "property": "C07",
   "status": "proved",
   "theorems": [
    "Bit.C07_segwit_roundtrip",
    "Bit.C07_segwit_encode_none",
    "Bit.C07_segwit_encode_raises"
   ],
   "note": ""
  },
  {
   "property": "C08",
   "status": "proved",
   "theorems": [
    "Bit.C08_segwit_canonical",
    "Bit.C08_segwit_injective"
   ],
   "note": ""
  },
  {
   "property": "C09",
   "status": "proved",
   "theorems": [
    "Bit.C09_four_errors_detected",
    "Bit.C09_single_error_any_length",
    "Bit.C09_other_network",
    "Bit.C09_exchanged"
   ],
   "note": "Single errors at any length by linearity of the code; up to four errors within 90 characters by linearity and a syndrome table checked by the kernel (Lemmas/Bech32Table is generated and checked, nothing is sampled)."
  },
  {
   "property": "C10",
   "status": "proved",
   "theorems": [
    "Bit.C10_upper_case_same",
    "Bit.C10_mixed_case_refused",
    "Bit.C10_non_ascii_refused"
   ],
   "note": ""
  },
  {
   "property": "C11",
   "status": "proved",
   "theorems": [
    "Bit.C11_regroup_pad",
    "Bit.C11_refuses_wide",
    "Bit.C11_regroup_strict_iff",
    "Bit.C11_regroup_roundtrip",
    "Bit.C11_strict_then_pad",
    "Bit.C11_regroup_roundtrip_any"
   ],
   "note": ""
  },
  {
   "property": "C12",
   "status": "proved",
   "theorems": [
    "Bit.C12_hex_roundtrip",
    "Bit.C12_hex_canonical",
    "Bit.C12_hex_odd",
    "Bit.C12_flip_involutive",
    "Bit.C12_int_hex_roundtrip"
   ],
   "note": ""
  },
  {
   "property": "C13",
   "status": "proved",
   "theorems": [
    "Bit.C13_varint_roundtrip",
    "Bit.C13_varint_size",
    "Bit.C13_varint_minimal"
   ],
   "note": ""
  },
  {
   "property": "C14",
   "status": "proved",
   "theorems": [
    "Bit.C14_script_push_parses",
    "Bit.C14_script_push_overflow"
   ],
   "note": ""
  },
  {
   "property": "C15",
   "status": "proved",
   "theorems": [
    "Bit.C15_coords_roundtrip",
    "Bit.C15_key_roundtrip",
    "Bit.C15_length"
   ],
   "note": ""
  },
  {
   "property": "C16",
   "status": "proved",
   "theorems": [
    "Bit.C16_on_curve",
    "Bit.C16_off_curve_accepted",
    "Bit.C16_five_accepted"
   ],
   "note": "The code does not refuse off-curve keys: C16_off_curve_accepted proves the negation of the ideal for every such x, C16_on_curve what holds for the others."
  },
  {
   "property": "C17",
   "status": "proved",
   "theorems": [
    "Bit.C17_p2pkh_address",
    "Bit.C17_mixed_case_paid",
    "Bit.C17_bech32_lookalike_refused",
    "Bit.C17_key_length"
   ],
   "note": "A P2PKH address whose text is also a valid Bech32 text is refused (C17_bech32_lookalike_refused is a real one); every text mixing upper and lower case is safe (C17_mixed_case_paid)."
  },
  {
   "property": "C18",
   "status": "proved",
   "theorems": [
    "Bit.C18_segwit_address",
    "Bit.C18_key_addresses"
   ],
   "note": ""
  },
  {
   "property": "C19",
   "status": "proved",
   "theorems": [
    "Bit.C19_segwit_output",
    "Bit.C19_segwit_output_not_base58",
    "Bit.C19_valid_address_unpayable"
   ],
   "note": "A valid segwit address that also decodes as Base58Check is unpayable; C19_valid_address_unpayable is a real one."
  },
  {
   "property": "C20",
   "status": "proved",
   "theorems": [
    "Bit.C20_unrecognised_refused",
    "Bit.C20_script_only_if_decoded",
    "Bit.C20_short_payload_accepted",
    "Bit.C20_bad_program_typeError"
   ],
   "note": "Violations proved with witnesses: payloads of a wrong length are accepted, and an invalid witness program gives TypeError."
  },
  {
   "property": "C21",
   "status": "proved",
   "theorems": [
    "Bit.C21_redeemscript",
    "Bit.C21_nonpositive_m"
   ],
   "note": ""
  },
  {
   "property": "C22",
   "status": "proved",
   "theorems": [
    "Bit.C22_set_order",
    "Bit.C22_set_sorted",
    "Bit.C22_bytes_or_hex"
   ],
   "note": ""
  },
  {
   "property": "C23",
   "status": "proved",
   "theorems": [
    "Bit.C23_exactly",
    "Bit.C23_construction",
    "Bit.C23_refusals",
    "Bit.C23_addresses",
    "Bit.C23_upper_case_refused"
   ],
   "note": ""
  },
  {
   "property": "C24",
   "status": "proved",
   "theorems": [
    "Bit.C24_deserialize",
    "Bit.C24_serialize",
    "Bit.C24_no_input",
    "Bit.C24_no_input_misread"
   ],
   "note": ""
  },
  {
   "property": "C25",
   "status": "proved",
   "theorems": [
    "Bit.C25_reserialize"
   ],
   "note": ""
  },
  {
   "property": "C26",
   "status": "proved",
   "theorems": [
    "Bit.C26_cut_refused",
    "Bit.C26_cut_witness_refused",
    "Bit.C26_cut_script_accepted",
    "Bit.C26_cut_outputs_lost",
    "Bit.C26_cut_odd_accepted",
    "Bit.C26_newline_refused",
    "Bit.C26_white_space",
    "Bit.C26_trailing_ignored",
    "Bit.C26_cut_locktime_accepted",
    "Bit.C26_only_valueError",
    "Bit.C26_missing_count_refused"
   ],
   "note": "The ideal (malformed transactions are refused) is false of the code; the theorems prove what it does instead."
  },
  {
   "property": "C27",
   "status": "proved",
   "theorems": [
    "Bit.C27_txid",
    "Bit.C27_witness_irrelevant"
   ],
   "note": ""
  },
  {
   "property": "C28",
   "status": "proved",
   "theorems": [
    "Bit.C28_formula",
    "Bit.C28_monotone"
   ],
   "note": ""
  },
  {
   "property": "C29",
   "status": "proved",
   "theorems": [
    "Bit.C29_p2pkh_covers",
    "Bit.C29_np2wkh_covers",
    "Bit.C29_many_inputs_undercounted"
   ],
   "note": "Proved for P2PKH and nested P2WPKH inputs up to 252 inputs and outputs; C29_many_inputs_undercounted shows that the bound on the counts is needed."
  },
  {
   "property": "C30",
   "status": "proved",
   "theorems": [
    "Bit.C30_subcollection"
   ],
   "note": ""
  },
  {
   "property": "C31",
   "status": "proved",
   "theorems": [
    "Bit.C31_conservation"
   ],
   "note": ""
  },
  {
   "property": "C32",
   "status": "proved",
   "theorems": [
    "Bit.C32_absolute_fee"
   ],
   "note": ""
  },
  {
   "property": "C33",
   "status": "proved",
   "theorems": [
    "Bit.C33_match_found"
   ],
   "note": ""
  },
  {
   "property": "C34",
   "status": "proved",
   "theorems": [
    "Bit.C34_search_bounded"
   ],
   "note": "Python's recursion limit is not modelled: with about a thousand unspents the real search raises RecursionError earlier."
  },
  {
   "property": "C35",
   "status": "proved",
   "theorems": [
    "Bit.C35_consolidate"
   ],
   "note": ""
  },
  {
   "property": "C36",
   "status": "proved",
   "theorems": [
    "Bit.C36_insufficient",
    "Bit.C36_sufficient",
    "Bit.C36_subset_would_suffice"
   ],
   "note": "C36_subset_would_suffice: the error may be raised although some of the coins would suffice."
  },
  {
   "property": "C37",
   "status": "proved",
   "theorems": [
    "Bit.C37_outputs"
   ],
   "note": ""
  },
  {
   "property": "C38",
   "status": "proved",
   "theorems": [
    "Bit.C38_same_network",
    "Bit.C38_refused"
   ],
   "note": ""
  },
  {
   "property": "C39",
   "status": "proved",
   "theorems": [
    "Bit.C39_message_chunks",
    "Bit.C39_bytes_chunks",
    "Bit.C39_bytes_need_flag",
    "Bit.C39_short_chunk",
    "Bit.C39_long_chunk_not_pushed",
    "Bit.C39_hex_text_refused"
   ],
   "note": "False for chunks of 76 to 80 bytes (C39_long_chunk_not_pushed): there the single length byte is not a push opcode."
  },
  {
   "property": "C40",
   "status": "proved",
   "theorems": [
    "Bit.C40_exact",
    "Bit.C40_refused"
   ],
   "note": ""
  },
  {
   "property": "C41",
   "status": "proved",
   "theorems": [
    "Bit.C41_replace_by_fee",
    "Bit.C41_unchanged"
   ],
   "note": ""
  },
  {
   "property": "C42",
   "status": "proved",
   "theorems": [
    "Bit.C42_C43_digests",
    "Bit.C42_legacy_digest",
    "Bit.C42_hash_type_refused",
    "Bit.C42_C43_signed"
   ],
   "note": ""
  },
  {
   "property": "C43",
   "status": "proved",
   "theorems": [
    "Bit.C43_segwit_digest"
   ],
   "note": ""
  },
  {
   "property": "C44",
   "status": "proved",
   "theorems": [
    "Bit.C44_only_own_inputs"
   ],
   "note": ""
  },
  {
   "property": "C45",
   "status": "proved",
   "theorems": [
    "Bit.C45_inputs_spend",
    "Bit.C45_succeeds",
    "Bit.C45_legacy_encoding_garbled",
    "Bit.C45_wrong_type_not_spent"
   ],
   "note": "C45_wrong_type_not_spent and C45_legacy_encoding_garbled show what happens outside the hypotheses (a coin declared with another type than its script; a transaction handed in in legacy encoding)."
  },
  {
   "property": "C46",
   "status": "proved",
   "theorems": [
    "Bit.C46_signing_commutes"
   ],
   "note": ""
  },
  {
   "property": "C47",
   "status": "proved",
   "theorems": [
    "Bit.C47_order_irrelevant",
    "Bit.C47_signatures_sorted",
    "Bit.C47_cosigner_objects"
   ],
   "note": ""
  },
  {
   "property": "C48",
   "status": "proved",
   "theorems": [
    "Bit.C48_complete",
    "Bit.C48_further_refused",
    "Bit.C48_succeeds"
   ],
   "note": ""
  },
  {
   "property": "C49",
   "status": "proved",
   "theorems": [
    "Bit.C49_segwit_signed_twice",
    "Bit.C49_legacy_signed_twice",
    "Bit.C49_legacy_history"
   ],
   "note": "The ideal is false for segwit inputs (C49_segwit_signed_twice); for legacy inputs signing twice changes nothing (C49_legacy_signed_twice for one script, C49_legacy_history for whole transactions and any sequence of co-signers with repetitions)."
  },
  {
   "property": "C50",
   "status": "proved",
   "theorems": [
    "Bit.C50_history",
    "Bit.C50_consistent",
    "Bit.C50_from_dict",
    "Bit.C50_roundtrip",
    "Bit.C50_missing",
    "Bit.C50_flag_from_type",
    "Bit.C50_equal",
    "Bit.C50_assigned_flag_lost"
   ],
   "note": "C50_assigned_flag_lost: a flag assigned by hand does not survive."
  },
  {
   "property": "C51",
   "status": "proved",
   "theorems": [
    "Bit.C51_offline",
    "Bit.C51_message_not_prepared",
    "Bit.C51_change_differs",
    "Bit.C51_fetched_type"
   ],
   "note": "Three limits are proved with witnesses: messages cannot be prepared, the change address differs for segwit coins, fetched coins keep a wrong type."
  },
  {
   "property": "C52",
   "status": "proved",
   "theorems": [
    "Bit.C52_refresh",
    "Bit.C52_balance_is_sum",
    "Bit.C52_balance_changes",
    "Bit.C52_spent_list",
    "Bit.C52_half_refresh"
   ],
   "note": "C52_spent_list and C52_half_refresh show how the equality of balance and unspents is lost."
  },
  {
   "property": "C53",
   "status": "proved",
   "theorems": [
    "Bit.C53_wif",
    "Bit.C53_class_decides_network",
    "Bit.C53_from_bytes",
    "Bit.C53_out_of_range",
    "Bit.C53_raw_formats",
    "Bit.C53_equality",
    "Bit.C53_raw_formats_compress"
   ],
   "note": ""
  },
  {
   "property": "C54",
   "status": "proved",
   "theorems": [
    "Bit.C54_invalid_prefix",
    "Bit.C54_plan",
    "Bit.C54_reported",
    "Bit.C54_not_stuck",
    "Bit.C54_workers_end",
    "Bit.C54_counter",
    "Bit.C54_wif_of_other_address",
    "Bit.C54_empty_prefix",
    "Bit.C54_wraparound_hang"
   ],
   "note": "Safety over all interleavings; C54_wraparound_hang shows a search that never ends, C54_wif_of_other_address that the reported WIF belongs to another address than the one reported."
  },
  {
   "property": "C55",
   "status": "proved",
   "theorems": [
    "Bit.C55_fee_cache",
    "Bit.C55_kinds_independent"
   ],
   "note": ""
  },
  {
   "property": "C56",
   "status": "proved",
   "theorems": [
    "Bit.C56_rate_cache",
    "Bit.C56_unknown_currency",
    "Bit.C56_currencies_independent"
   ],
   "note": ""
  },
  {
   "property": "C57",
   "status": "proved",
   "theorems": [
    "Bit.C57_to_satoshi",
    "Bit.C57_places",
    "Bit.C57_to_currency",
    "Bit.C57_cached_to_currency",
    "Bit.C57_long_product",
    "Bit.C57_short_precision"
   ],
   "note": "Exact floor whenever the product fits the precision; C57_long_product and C57_short_precision show that the condition is needed."
  },
  {
   "property": "C58",
   "status": "proved",
   "theorems": [
    "Bit.C58_roundtrip",
    "Bit.C58_too_long"
   ],
   "note": "C58_too_long shows the failure beyond the precision."
  },
  {
   "property": "C59",
   "status": "proved",
   "theorems": [
    "Bit.C59_first_answer",
    "Bit.C59_connection_error",
    "Bit.C59_ignored",
    "Bit.C59_rates_ignored",
    "Bit.C59_http_error_aborts"
   ],
   "note": "C59_http_error_aborts: an HTTP error of Bitcore is not in the ignored errors and ends the query."
  },
  {
   "property": "C60",
   "status": "proved",
   "theorems": [
    "Bit.C60_broadcast",
    "Bit.C60_node_refusal",
    "Bit.C60_node_accepts"
   ],
   "note": ""
  },
  {
   "property": "C61",
   "status": "proved",
   "theorems": [
    "Bit.C61_connected",
    "Bit.C61_query"
   ],
   "note": ""
  },
  {
   "property": "C62",
   "status": "proved",
   "theorems": [
    "Bit.C62_blockchair_transactions",
    "Bit.C62_blockchair_unspent",
    "Bit.C62_blockchair_not_found",
    "Bit.C62_blockstream_transactions",
    "Bit.C62_blockstream_test_confirmed_only",
    "Bit.C62_blockstream_unspent",
    "Bit.C62_blockstream_test_unspent",
    "Bit.C62_blockstream_excessive",
    "Bit.C62_blockstream_test_too_many",
    "Bit.C62_blockstream_unchecked",
    "Bit.C62_blockstream_bad_request",
    "Bit.C62_bitcore_unspent",
    "Bit.C62_blockchain_transactions",
    "Bit.C62_blockchain_unspent",
    "Bit.C62_blockchain_failure_is_empty",
    "Bit.C62_smartbit_transactions",
    "Bit.C62_smartbit_unspent"
   ],
   "note": "Limits of the code are theorems: C62_blockchair_not_found, C62_blockstream_unchecked, C62_blockstream_bad_request, C62_blockstream_test_too_many, C62_blockstream_test_confirmed_only, C62_blockchain_failure_is_empty."
  },
  {
   "property": "C63",
   "status": "proved",
   "theorems": [
    "Bit.C63_unsigned",
    "Bit.C63_create",
    "Bit.C63_create_contract"
   ],
   "note": ""
  },
  {
   "property": "C64",
   "status": "proved",
   "theorems": [
    "Bit.C64_signed_accepted",
    "Bit.C64_cosigned_accepted",
    "Bit.C64_incomplete_rejected",
    "Bit.C64_created_accepted",
    "Bit.C64_contract_created_accepted",
    "Bit.C64_wrong_type_rejected"
   ],
   "note": "The script interpreter is Spec/Interp (opcodes used by the templates, with the limits of a node: 10000-byte scripts, 520-byte items, 201 opcodes, 1000 stack items). C64_incomplete_rejected and C64_wrong_type_rejected show that it does reject."
  },
  {
   "property": "C65",
   "status": "proved",
   "theorems": [
    "Bit.C65_send_cases",
    "Bit.C65_sent",
    "Bit.C65_sent_fetched",
    "Bit.C65_error_not_conclusive"
   ],
   "note": "C65_error_not_conclusive: ConnectionError does not imply that nothing was accepted by the network."
  },
  {
   "property": "C66",
   "status": "proved",
   "theorems": [
    "Bit.C66_get_balance",
    "Bit.C66_fetch_error"
   ],
   "note": ""
  },
  {
   "property": "C67",
   "status": "proved",
   "theorems": [
    "Bit.C67_transactions",
    "Bit.C67_failure",
    "Bit.C67_listed_twice"
   ],
   "note": "C67_listed_twice: a transaction that concerns both addresses is listed twice."
  },
  {
   "property": "C68",
   "status": "proved",
   "theorems": [
    "Bit.C68_blockchair_balance",
    "Bit.C68_blockstream_balance",
    "Bit.C68_bitcore_balance",
    "Bit.C68_smartbit_balance",
    "Bit.C68_blockchain_balance",
    "Bit.C68_balance",
    "Bit.C68_transactions",
    "Bit.C68_unspent",
    "Bit.C68_balance_is_sum",
    "Bit.C68_refresh",
    "Bit.C68_send",
    "Bit.C68_get_balance",
    "Bit.C68_history"
   ],
   "note": ""
  },
  {
   "property": "C69",
   "status": "proved",
   "theorems": [
    "Bit.C69_networks_apart",
    "Bit.C69_accepted",
    "Bit.C69_only_submits",
    "Bit.C69_node",
    "Bit.C69_bitcore_test_coin"
   ],
   "note": "C69_bitcore_test_coin: the test network push to Bitcore names the coin BCH."
  },
  {
   "property": "C70",
   "status": "proved",
   "theorems": [
    "Bit.C70_blockchair",
    "Bit.C70_blockstream",
    "Bit.C70_smartbit",
    "Bit.C70_blockchain",
    "Bit.C70_by_id"
   ],
   "note": ""
  },
  {
   "property": "C71",
   "status": "proved",
   "theorems": [
    "Bit.C71_node_unspent",
    "Bit.C71_node_transactions",
    "Bit.C71_connected_unspent",
    "Bit.C71_unreachable",
    "Bit.C71_connected_transaction",
    "Bit.C71_connected_transactions",
    "Bit.C71_node_balance_is_received",
    "Bit.C71_node_balance_rounded"
   ],
   "note": "get_balance of a node is what was ever received (C71_node_balance_is_received), rounded to nine digits (C71_node_balance_rounded); unspents are exact."
  },
  {
   "property": "C72",
   "status": "proved",
   "theorems": [
    "Bit.C72_bitpay",
    "Bit.C72_blockchain",
    "Bit.C72_rate",
    "Bit.C72_second",
    "Bit.C72_amount",
    "Bit.C72_weak_currency",
    "Bit.C72_not_json"
   ],
   "note": "C72_weak_currency (rate zero above 10^8 per bitcoin) and C72_not_json are limits of the code."
  },
  {
   "property": "C73",
   "status": "proved",
   "theorems": [
    "Bit.C73_request",
    "Bit.C73_fee",
    "Bit.C73_strange_reply",
    "Bit.C73_get_fee",
    "Bit.C73_get_fee_ignores_status"
   ],
   "note": "C73_get_fee_ignores_status: get_fee takes a fee out of a reply with an error status. C73_strange_reply: a reply without the field is an error although an older fee is known."
  },
  {
   "property": "C74",
   "status": "proved",
   "theorems": [
    "Bit.C74_can_sign",
    "Bit.C74_can_sign_contract"
   ],
   "note": ""
  },
  {
   "property": "C75",
   "status": "proved",
   "theorems": [
    "Bit.C75_contract_address",
    "Bit.C75_contract_segwit_address",
    "Bit.C75_contract_address_exists"
   ],
   "note": ""
  },
  {
   "property": "C76",
   "status": "proved",
   "theorems": [
    "Bit.C76_fee_rate",
    "Bit.C76_message_underpaid",
    "Bit.C76_match_underpaid",
    "Bit.C76_mixed_underpaid"
   ],
   "note": "Exact cover for the default (combined) case; in general up to the stated shortfall. Each shortfall is proved to occur: C76_match_underpaid, C76_mixed_underpaid, C76_message_underpaid."
  },
  {
   "property": "C77",
   "status": "proved",
   "theorems": [
    "Bit.C77_roundtrip",
    "Bit.C77_injective",
    "Bit.C77_printable",
    "Bit.C77_unspent",
    "Bit.C77_prepared"
   ],
   "note": ""
  },
  {
   "property": "C78",
   "status": "proved",
   "theorems": [
    "Bit.C78_hex",
    "Bit.C78_prepared_not_hex"
   ],
   "note": ""
  },
  {
   "property": "C79",
   "status": "proved",
   "theorems": [
    "Bit.C79_loads",
    "Bit.C79_prepared",
    "Bit.C79_sign",
    "Bit.C79_reformatted",
    "Bit.C79_only",
    "Bit.C79_refused"
   ],
   "note": ""
  },
  {
   "property": "C80",
   "status": "proved",
   "theorems": [
    "Bit.C80_cannot_continue"
   ],
   "note": "That coincurve raises ValueError for such keys is a reading of its documentation (isPoint in Model/Crypto); an exception of any kind gives the same theorem."
  },
  {
   "property": "C81",
   "status": "proved",
   "theorems": [
    "Bit.C81_fee_rate",
    "Bit.C81_booked",
    "Bit.C81_mixed_underpaid"
   ],
   "note": "Coins are booked as get_unspents books them (C81_booked). C81_mixed_underpaid: the shortfall for mixed coins of a 1-of-n contract does occur."
  },
  {
   "property": "C82",
   "status": "proved",
   "theorems": [
    "Bit.C82_loads",
    "Bit.C82_sign",
    "Bit.C82_prepared"
   ],
   "note": "Uses the model of json.loads (Model/JsonText); white space at the end does not matter, as in JSON."
  },
  {
   "property": "C83",
   "status": "proved",
   "theorems": [
    "Bit.C83_signed",
    "Bit.C83_cosigned",
    "Bit.C83_created",
    "Bit.C83_txid"
   ],
   "note": "The assumptions on hash and signature scheme concern only the strings of the two transactions (Spec/Tamper: Unforged, Differ). Not claimed: that nobody but the owner can change the script or witness of the signed input itself."
  },
  {
   "property": "C84",
   "status": "proved",
   "theorems": [
    "Bit.C84_fees",
    "Bit.C84_fee_errors",
    "Bit.C84_fee_ends",
    "Bit.C84_fee_alone",
    "Bit.C84_crossing",
    "Bit.C84_rates",
    "Bit.C84_rate_errors",
    "Bit.C84_rate_ends"
   ],
   "note": "Steps are the accesses to the shared variables in source order, each indivisible (as under the interpreter lock); the clock does not go backwards. C84_crossing: an answer older than the cache time can be served."
  },
  {
   "property": "C85",
   "status": "proved",
   "theorems": [
    "Bit.C85_result",
    "Bit.C85_frame",
    "Bit.C85_frame_prepare",
    "Bit.C85_insufficient",
    "Bit.C85_spent",
    "Bit.C85_spent_key",
    "Bit.C85_refresh",
    "Bit.C85_history",
    "Bit.C85_signals",
    "Bit.C85_sticky",
    "Bit.C85_truncated",
    "Bit.C85_alias"
   ],
   "note": "C85_sticky, C85_truncated and C85_alias show consequences that may surprise. The result of prepare_transaction itself is the one of Model/Wallet (C77)."
  },
  {
   "property": "C86",
   "status": "proved",
   "theorems": [
    "Bit.C86_errors",
    "Bit.C86_refused",
    "Bit.C86_paid"
   ],
   "note": "Without consolidation the converse cannot hold in this form: a subset of the coins may need a smaller fee."
  },
  {
   "property": "C87",
   "status": "proved",
   "theorems": [
    "Bit.C87_valid",
    "Bit.C87_moves",
    "Bit.C87_shown",
    "Bit.C87_history"
   ],
   "note": "Assumes that the services are honest at the moment of each payment and that the created transaction is confirmed before the next one; no reorganisations of the chain. The transaction id is assumed not to be that of an unspent output (Fresh, as in BIP-30). A negative fee rate is excluded for validity, and a call without any payment may create a transaction without outputs."
  },
  {
   "property": "C88",
   "status": "proved",
   "theorems": [
    "Bit.C88_contract_creates",
    "Bit.C88_succeeds",
    "Bit.C88_exactly",
    "Bit.C88_contract",
    "Bit.C88_on_chain"
   ],
   "note": "What is in order is InOrder and CoinsOk (Props/Live): the limits on sizes are those of the encodings (64-bit amounts and counts). For contracts the co-signing step has the assumptions of C48 (NoMixup on the strings concerned)."
  },
  {
   "property": "C89",
   "status": "proved",
   "theorems": [
    "Bit.C89_relevant",
    "Bit.C89_same_coins",
    "Bit.C89_legacy_amounts",
    "Bit.C89_own_lists"
   ],
   "note": "C89_legacy_amounts states the limit. The lists of different coins (Distinct) have well-formed outpoints; for C89_own_lists the assumptions on strings are those of C48 and C63."
  },
  {
   "property": "C90",
   "status": "proved",
   "theorems": [
    "Bit.C90_pays",
    "Bit.C90_valid",
    "Bit.C90_moves",
    "Bit.C90_signed",
    "Bit.C90_shown",
    "Bit.C90_history"
   ],
   "note": "As for C87: honest services at the moment of each payment, no reorganisations, fresh transaction ids. The two addresses of the contract are assumed to have different scripts (TwoScripts: no collision of HASH160 on these two strings), and signatures of co-signers not to verify under other keys of the contract (NoMixup, as in C48). Transactions of co-signers made outside the library are not among the steps of a history."
  },
  {
   "property": "C91",
   "status": "proved",
   "theorems": [
    "Bit.C91_contract_pays",
    "Bit.C91_contract_balance",
    "Bit.C91_send",
    "Bit.C91_contract",
    "Bit.C91_balance",
    "Bit.C91_pays"
   ],
   "note": "Composes C68 with C87, C88 and C90. The reply formats are those of Spec/Web, as read from the code and the services; AsksWeb/Online: the service lists are the initial ones, queries may take as many rounds as there are unspent outputs. The limits of C87 and C90 apply (no reorganisation between the replies and the payment)."
  },
  {
   "property": "C92",
   "status": "proved",
   "theorems": [
    "Bit.C92_any_order",
    "Bit.C92_accepted",
    "Bit.C92_pool",
    "Bit.C92_signed",
    "Bit.C92_valid",
    "Bit.C92_moves"
   ],
   "note": "signInTurn is the session: each key gets the text the one before returned. Pool: the scripts of the keys are all different, each unspent pays to one of them and carries the type of its script. OrdinaryAddresses as in C74."
  },
  {
   "property": "C93",
   "status": "proved",
   "theorems": [
    "Bit.C93_other_key",
    "Bit.C93_cosigned",
    "Bit.C93_twin",
    "Bit.C93_public_point",
    "Bit.C93_distinct",
    "Bit.C93_signature",
    "Bit.C93_sign_verify",
    "Bit.C93_verify",
    "Bit.C93_key_laws",
    "Bit.C93_signer_laws",
    "Bit.C93_accepted",
    "Bit.C93_exists",
    "Bit.C93_contract"
   ],
   "note": "That coincurve computes these functions is trusted (Standard); C93_exists shows that they exist. libsecp256k1 accepts only signatures with s in the lower half, and so does the statement."
  },
  {
   "property": "C94",
   "status": "proved",
   "theorems": [
    "Bit.C94_precision",
    "Bit.C94_to_satoshi",
    "Bit.C94_to_currency",
    "Bit.C94_unspent",
    "Bit.C94_changed"
   ],
   "note": "One thread: another thread has a decimal context of its own. That amounts of ten digits are changed for good is a limitation (C94_changed)."
  },
  {
   "property": "C95",
   "status": "proved",
   "theorems": [
    "Bit.C95_bump",
    "Bit.C95_bump_contract",
    "Bit.C95_once",
    "Bit.C95_mixed_refused",
    "Bit.C95_selected_pays_twice"
   ],
   "note": "Raising a rate by one satoshi per byte with coins of mixed kinds can be refused by nodes (C95_mixed_refused, from the estimate of C76). Without combine the second call may select other coins: then it replaces nothing and the payment is made twice (C95_selected_pays_twice). Spec.Replaces leaves out transactions that depend on the replaced one."
  },
  {
   "property": "C96",
   "status": "proved",
   "theorems": [
    "Bit.C96_sweep",
    "Bit.C96_sweep_contract",
    "Bit.C96_no_outputs",
    "Bit.C96_dust_change"
   ],
   "note": "That a transaction without outputs is returned when the coins are worth exactly the fee (C96_no_outputs), and that change of any size is paid out (C96_dust_change), are limitations. Assumptions as for C87 and C90."
  },
  {
   "property": "C97",
   "status": "proved",
   "theorems": [
    "Bit.C97_contract",
    "Bit.C97_created",
    "Bit.C97_offline",
    "Bit.C97_pays",
    "Bit.C97_send"
   ],
   "note": "One thread; the default source of fees. Offline independence, creation, the ledger: keys and contracts; send: keys. Amounts are exact if the product has no more digits than the decimal context (28, or 9 after the balance of a connected node was asked: C94); the whole part is taken of any finer amount. A service that answers page after page for ever is cut off after a number of pages, as a time-out."
  },
  {
   "property": "C98",
   "status": "proved",
   "theorems": [
    "Bit.C98_contract",
    "Bit.C98_contract_pays",
    "Bit.C98_url",
    "Bit.C98_url_cut",
    "Bit.C98_request",
    "Bit.C98_call",
    "Bit.C98_different",
    "Bit.C98_method",
    "Bit.C98_broadcast",
    "Bit.C98_unspent",
    "Bit.C98_send",
    "Bit.C98_pays"
   ],
   "note": "URLs as in RFC 3986; login names and passwords with percent signs are left out (a reader would decode them). Parameters are JSON values; floats are those whose text reads back as the same float. What the HTTP library does with the URL is not modelled, nor are time-outs of node calls (the code sets none)."
  },
  {
   "property": "C99",
   "status": "proved",
   "theorems": [
    "Bit.C99_read",
    "Bit.C99_foreign",
    "Bit.C99_completes",
    "Bit.C99_type",
    "Bit.C99_segwit_bad"
   ],
   "note": "For segwit inputs: fewer than 253 items in the witness, of which those that look like signatures are good (GoodStack); C99_segwit_bad shows what happens otherwise. Assumes that a DER text that verifies has at most 72 bytes, and for the count of empty places and for acceptance that no DER text verifies under two keys of the contract for this input. C99_type and C99_segwit_bad state shortcomings."
  },
  {
   "property": "C100",
   "status": "proved",
   "theorems": [
    "Bit.C100_device",
    "Bit.C100_alike",
    "Bit.C100_watch",
    "Bit.C100_program",
    "Bit.C100_contract",
    "Bit.C100_prepare"
   ],
   "note": "Time and memory are not observed, and coincurve is outside. `to_der` and `to_pem` are not modelled."
  },
  {
   "property": "C101",
   "status": "proved",
   "theorems": [
    "Bit.C101_create",
    "Bit.C101_send",
    "Bit.C101_sign",
    "Bit.C101_offline"
   ],
   "note": "About calls that succeed. A signature that is made and thrown away has no effect and is not seen. For prepared data the conditions are those of C51 (no message)."
  },
  {
   "property": "C102",
   "status": "proved",
   "theorems": [
    "Bit.C102_cut",
    "Bit.C102_cut_contract",
    "Bit.C102_cut_odd"
   ],
   "note": "`IsTransactionText` says that the text is the hexadecimal form of a well formed transaction with at least one input, in the original or the extended serialisation. For contracts and transactions that already carry witnesses nothing is claimed: signatures in a witness no longer verify when the lock time is missing, and the witness written then claims more items than it has."
  },
  {
   "property": "C103",
   "status": "proved",
   "theorems": [
    "Bit.C103_list",
    "Bit.C103_answered",
    "Bit.C103_reported",
    "Bit.C103_alone",
    "Bit.C103_twice",
    "Bit.C103_stale",
    "Bit.C103_alone_transactions",
    "Bit.C103_twice_transactions",
    "Bit.C103_overspent"
   ],
   "note": "Steps are the questions to the services and the operations on the list and the balance in source order, each indivisible (as under the interpreter lock); the summation goes item by item. C103_twice, C103_twice_transactions, C103_stale and C103_overspent show the faults. Assumed: nobody binds another list to the attribute."
  },
  {
   "property": "C104",
   "status": "proved",
   "theorems": [
    "Bit.C104_call",
    "Bit.C104_settled",
    "Bit.C104_other_network",
    "Bit.C104_alone",
    "Bit.C104_torn",
    "Bit.C104_between"
   ],
   "note": "Each assignment of connect_to_node is one indivisible step (as under the interpreter lock); a call reads the attribute once and keeps that list. C104_torn and C104_between show what can go wrong."
  },
  {
   "property": "C105",
   "status": "proved",
   "theorems": [
    "Bit.C105_unreadable",
    "Bit.C105_never_legacy",
    "Bit.C105_not_paid",
    "Bit.C105_not_prepared"
   ],
   "note": "Characters after the separator are replaced by any characters, also by ones outside the alphabet, capitals or the separator. The hypothesis that the text is not a Base58Check text is proved to hold for the lengths of key addresses (C105_never_legacy); a mistyped main network script address (62 characters) would pass only if its last four bytes matched the digest."
  },
  {
   "property": "C106",
   "status": "proved",
   "theorems": [
    "Bit.C106_inserted",
    "Bit.C106_version_zero",
    "Bit.C106_bech32m_refused",
    "Bit.C106_one_letter"
   ],
   "note": "C106_inserted and C106_one_letter are the weakness of Bech32 that BIP-350 describes, as far as the code has it; C106_version_zero bounds it for the addresses the package makes."
  },
  {
   "property": "C107",
   "status": "proved",
   "theorems": [
    "Bit.C107_never",
    "Bit.C107_long"
   ],
   "note": "A sufficient condition for prefixes that no address has (the number it writes is too large); it covers every prefix of 35 or more characters whose second character is not 1."
  }
 ]
}