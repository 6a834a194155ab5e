{"claims": [
{"property": "C01", "status": "proved", "theorems": ["OB.C01_tick_price"], "note": "statement: lean/Verif/Props/Price.lean"},
{"property": "C02", "status": "proved", "theorems": ["OB.C02_price_monotone"], "note": "statement: lean/Verif/Props/Price.lean"},
{"property": "C03", "status": "proved", "theorems": ["OB.C03_conversion_exact"], "note": "statement: lean/Verif/Props/Price.lean"},
{"property": "C04", "status": "proved", "theorems": ["OB.C04_conversion_total"], "note": "statement: lean/Verif/Props/Price.lean"},
{"property": "C05", "status": "proved", "theorems": ["OB.C05_place_acceptance"], "note": "statement: lean/Verif/Props/Place.lean"},
{"property": "C06", "status": "proved", "theorems": ["OB.C06_fresh_id", "OB.C06_unique_ids", "OB.C06_never_reused"], "note": "statement: lean/Verif/Props/Place.lean"},
{"property": "C07", "status": "proved", "theorems": ["OB.C07_place_effects"], "note": "statement: lean/Verif/Props/Place.lean"},
{"property": "C08", "status": "proved", "theorems": ["OB.C08_only_owner_cancels"], "note": "statement: lean/Verif/Props/Cancel.lean"},
{"property": "C09", "status": "proved", "theorems": ["OB.C09_cancel_iff_no_unclaimed_fill", "OB.C09_cancel_effects", "OB.C09_cancel_final"], "note": "statement: lean/Verif/Props/Cancel.lean"},
{"property": "C10", "status": "proved", "theorems": ["OB.C10_cancel_keeps_others"], "note": "statement: lean/Verif/Props/Cancel.lean"},
{"property": "C11", "status": "proved", "theorems": ["OB.C11_orders_are_live_entries", "OB.C11_time_priority", "OB.C11_claim_iff_unclaimed_fill", "OB.C12_claim_effects"], "note": "statement: lean/Verif/Props/Claim.lean; amount claimed: C12_claim_effects"},
{"property": "C12", "status": "proved", "theorems": ["OB.C12_claim_effects"], "note": "statement: lean/Verif/Props/Claim.lean"},
{"property": "C13", "status": "proved", "theorems": ["OB.C13_owner_share"], "note": "statement: lean/Verif/Props/Claim.lean"},
{"property": "C14", "status": "proved", "theorems": ["OB.C14_no_double_claim", "OB.C14_full_claim_final", "OB.C14_total"], "note": "statement: lean/Verif/Props/Claim.lean"},
{"property": "C15", "status": "proved", "theorems": ["OB.C15_caller_independent"], "note": "statement: lean/Verif/Props/Claim.lean"},
{"property": "C16", "status": "proved", "theorems": ["OB.C16_batch_is_sequence", "OB.C16_batch_accepted_iff"], "note": "statement: lean/Verif/Props/Claim.lean"},
{"property": "C17", "status": "proved", "theorems": ["OB.C17_split_claims"], "note": "statement: lean/Verif/Props/Price.lean"},
{"property": "C18", "status": "proved", "theorems": ["OB.C18_swap_payment", "OB.C18_swap_rejected"], "note": "statement: lean/Verif/Props/Swap.lean"},
{"property": "C19", "status": "proved", "theorems": ["OB.C19_quote_equals_execution"], "note": "statement: lean/Verif/Props/Swap.lean"},
{"property": "C20", "status": "proved", "theorems": ["OB.C20_best_price_first"], "note": "statement: lean/Verif/Props/Swap.lean"},
{"property": "C21", "status": "proved", "theorems": ["OB.C21_charge_fair", "OB.C21_swap_fair", "OB.C22_input_accounted"], "note": "statement: lean/Verif/Props/Swap.lean"},
{"property": "C22", "status": "proved", "theorems": ["OB.C22_input_accounted"], "note": "statement: lean/Verif/Props/Swap.lean"},
{"property": "C23", "status": "proved", "theorems": ["OB.C23_target_not_crossed", "OB.C23_bad_target_rejected"], "note": "statement: lean/Verif/Props/Swap.lean"},
{"property": "C24", "status": "proved", "theorems": ["OB.C24_swap_conservation"], "note": "statement: lean/Verif/Props/Swap.lean"},
{"property": "C25", "status": "proved", "theorems": ["OB.C25_pointers_sound"], "note": "statement: lean/Verif/Props/Book.lean"},
{"property": "C26", "status": "proved", "theorems": ["OB.C26_tick_liquidity", "OB.C26_pool_liquidity"], "note": "statement: lean/Verif/Props/Book.lean"},
{"property": "C27", "status": "proved", "theorems": ["OB.C27_solvency", "OB.C27_execute_payable", "OB.C27_swap_payable"], "note": "statement: lean/Verif/Props/Funds.lean"},
{"property": "C28", "status": "proved", "theorems": ["OB.C28_accounting", "OB.C28_monotone"], "note": "statement: lean/Verif/Props/Book.lean"},
{"property": "C29", "status": "proved", "theorems": ["OB.C29_sync_total", "OB.C29_sync_idempotent", "OB.C29_claim_and_cancel_sync"], "note": "statement: lean/Verif/Props/Sync.lean"},
{"property": "C30", "status": "proved", "theorems": ["OB.C30_walk_is_sequential", "OB.C30_walk_from_init"], "note": "statement: lean/Verif/Props/Tree.lean"},
{"property": "C31", "status": "proved", "theorems": ["OB.C31_stored_trees_valid", "OB.C31_leaves_sorted", "OB.C31_tree_unique", "OB.C31_insert_keeps_valid"], "note": "statement: lean/Verif/Props/Tree.lean"},
{"property": "C32", "status": "proved", "theorems": ["OB.C32_height_logarithmic", "OB.C32_walk_depth", "OB.C32_insert_depth"], "note": "statement: lean/Verif/Props/Tree.lean"},
{"property": "C33", "status": "proved", "theorems": ["OB.C33_cancel_errors"], "note": "statement: lean/Verif/Props/Tree.lean"},
{"property": "C34", "status": "proved", "theorems": ["OB.C34_sides_isolated", "OB.C34_place_and_swap_exact"], "note": "statement: lean/Verif/Props/Isolation.lean"},
{"property": "C35", "status": "proved", "theorems": ["OB.C35_ticks_isolated", "OB.C35_swap_touches_only_filled"], "note": "statement: lean/Verif/Props/Isolation.lean"},
{"property": "C36", "status": "proved", "theorems": ["OB.C36_authority", "OB.C36_unauthorized", "OB.C36_effect"], "note": "statement: lean/Verif/Props/Auth.lean"},
{"property": "C37", "status": "proved", "theorems": ["OB.C37_state_machine", "OB.C37_admin_changes", "OB.C37_moderator_changes", "OB.C37_offer_origin", "OB.C37_moderator_offer_origin"], "note": "statement: lean/Verif/Props/Auth.lean"},
{"property": "C38", "status": "proved", "theorems": ["OB.C38_frozen", "OB.C38_reactivation"], "note": "statement: lean/Verif/Props/Auth.lean"},
{"property": "C39", "status": "proved", "theorems": ["OB.C39_complete", "OB.C39_denoms_fixed", "OB.C39_claim_has_recipient"], "note": "statement: lean/Verif/Props/Auth.lean"},
{"property": "C40", "status": "proved", "theorems": ["OB.C40_orders_by_owner", "OB.C40_orders_by_tick", "OB.C40_paging_by_owner", "OB.C40_paging_by_tick"], "note": "statement: lean/Verif/Props/Query.lean"},
{"property": "C41", "status": "proved", "theorems": ["OB.C41_all_ticks", "OB.C41_paging", "OB.C41_ticks_by_id"], "note": "statement: lean/Verif/Props/Query.lean"},
{"property": "C42", "status": "proved", "theorems": ["OB.C42_unrealized_cancels", "OB.C42_next_sync"], "note": "statement: lean/Verif/Props/Sync.lean"},
{"property": "C43", "status": "proved", "theorems": ["OB.C43_spot_price"], "note": "statement: lean/Verif/Props/Query.lean"},
{"property": "C44", "status": "proved", "theorems": ["OB.C44_failure_changes_nothing", "OB.C44_accepted_iff_settled", "OB.C44_failed_transfer"], "note": "statement: lean/Verif/Props/Tx.lean"},
{"property": "C45", "status": "proved", "theorems": ["OB.C45_queries_read_only", "OB.C45_migrate"], "note": "statement: lean/Verif/Props/Query.lean"},
{"property": "C46", "status": "proved", "theorems": ["OB.C46_claim_succeeds", "OB.C46_exit"], "note": "statement: lean/Verif/Props/Funds.lean"},
{"property": "C47", "status": "proved", "theorems": ["OB.C47_outflow_justified", "OB.C47_no_outflow"], "note": "statement: lean/Verif/Props/Funds.lean"},
{"property": "C48", "status": "proved", "theorems": ["OB.C48_reference_engine", "OB.C48_levels_exist"], "note": "statement: lean/Verif/Props/Engine.lean"},
{"property": "C49", "status": "proved", "theorems": ["OB.C49_place_errors", "OB.C49_cancel_errors", "OB.C49_claim_errors", "OB.C49_batch_errors"], "note": "statement: lean/Verif/Props/Errors.lean"},
{"property": "C50", "status": "proved", "theorems": ["OB.C50_swap_errors"], "note": "statement: lean/Verif/Props/Errors.lean"},
{"property": "C51", "status": "proved", "theorems": ["OB.C51_replay"], "note": "statement: lean/Verif/Props/Log.lean"},
{"property": "C52", "status": "proved", "theorems": ["OB.C52_largest_affordable", "OB.C52_monotone"], "note": "statement: lean/Verif/Props/Econ.lean"},
{"property": "C53", "status": "proved", "theorems": ["OB.C53_best_execution"], "note": "statement: lean/Verif/Props/Econ.lean"},
{"property": "C54", "status": "proved", "theorems": ["OB.C54_never_better", "OB.C54_no_round_trip"], "note": "statement: lean/Verif/Props/Econ.lean"},
{"property": "C55", "status": "proved", "theorems": ["OB.C55_splitting"], "note": "statement: lean/Verif/Props/Econ.lean"},
{"property": "C56", "status": "proved", "theorems": ["OB.C56_instantiate"], "note": "statement: lean/Verif/Props/Setup.lean"},
{"property": "C57", "status": "proved", "theorems": ["OB.C57_unsupported"], "note": "statement: lean/Verif/Props/Setup.lean"},
{"property": "C58", "status": "proved", "theorems": ["OB.C58_place", "OB.C58_swap", "OB.C58_rest"], "note": "statement: lean/Verif/Props/Pointer.lean"},
{"property": "C59", "status": "proved", "theorems": ["OB.C59_auth_errors", "OB.C59_gov_errors"], "note": "statement: lean/Verif/Props/AdminErrors.lean"},
{"property": "C60", "status": "proved", "theorems": ["OB.C60_quote"], "note": "statement: lean/Verif/Props/Quote.lean"},
{"property": "C61", "status": "proved", "theorems": ["OB.C61_replay", "OB.C61_silent", "OB.C61_pair"], "note": "statement: lean/Verif/Props/ConfLog.lean"},
{"property": "C62", "status": "proved", "theorems": ["OB.C62_blocked", "OB.C62_attack"], "note": "statement: lean/Verif/Props/Block.lean"},
{"property": "C63", "status": "proved", "theorems": ["OB.C63_balances", "OB.C63_no_loss", "OB.C63_conserved"], "note": "statement: lean/Verif/Props/Flow.lean"},
{"property": "C64", "status": "proved", "theorems": ["OB.C64_wind_down", "OB.C64_live_orders_exist"], "note": "statement: lean/Verif/Props/Exit.lean"},
{"property": "C65", "status": "proved", "theorems": ["OB.C65_batch_order", "OB.C65_claims_commute"], "note": "statement: lean/Verif/Props/Commute.lean"},
{"property": "C66", "status": "proved", "theorems": ["OB.C66_delete_node", "OB.C66_delete_leaf", "OB.C66_delete_reachable", "OB.C66_insert_after_delete_fails"], "note": "statement: lean/Verif/Props/Delete.lean"},
{"property": "C67", "status": "proved", "theorems": ["OB.C67_step", "OB.C67_refines"], "note": "statement: lean/Verif/Props/Refine.lean"},
{"property": "C68", "status": "proved", "theorems": ["OB.C68_queries"], "note": "statement: lean/Verif/Props/Answers.lean"},
{"property": "C69", "status": "proved", "theorems": ["OB.C69_keys_distinct", "OB.C69_key_order"], "note": "statement: lean/Verif/Props/Storage.lean"},
{"property": "C70", "status": "proved", "theorems": ["OB.C70_storage", "OB.C70_iteration"], "note": "statement: lean/Verif/Props/Storage.lean"},
{"property": "C71", "status": "proved", "theorems": ["OB.C71_write", "OB.C71_transaction"], "note": "statement: lean/Verif/Props/Storage.lean"},
{"property": "C72", "status": "proved", "theorems": ["OB.C72_counters", "OB.C72_room"], "note": "statement: lean/Verif/Props/Room.lean"},
{"property": "C73", "status": "proved", "theorems": ["OB.C73_accept_iff", "OB.C73_refused", "OB.C73_reachable", "OB.C73_worlds"], "note": "statement: lean/Verif/Props/Refuse.lean"},
{"property": "C74", "status": "proved", "theorems": ["OB.C74_only_parties_matter", "OB.C74_claim_iff", "OB.C74_blocked_recipient", "OB.C74_zero_fee_remedy"], "note": "statement: lean/Verif/Props/Refuse.lean"},
{"property": "C75", "status": "proved", "theorems": ["OB.C75_orders", "OB.C75_config"], "note": "statement: lean/Verif/Props/Text.lean"},
{"property": "C76", "status": "proved", "theorems": ["OB.C76_amounts", "OB.C76_ticks", "OB.C76_decimals", "OB.C76_distinct", "OB.C76_swap", "OB.C76_price_range"], "note": "statement: lean/Verif/Props/Text.lean"},
{"property": "C77", "status": "proved", "theorems": ["OB.C77_block_time"], "note": "statement: lean/Verif/Props/Sym.lean"},
{"property": "C78", "status": "proved", "theorems": ["OB.C78_renaming"], "note": "statement: lean/Verif/Props/Sym.lean"},
{"property": "C79", "status": "proved", "theorems": ["OB.C79_depth"], "note": "statement: lean/Verif/Props/Sym.lean"},
{"property": "C80", "status": "proved", "theorems": ["OB.C80_local"], "note": "statement: lean/Verif/Props/Local.lean"},
{"property": "C81", "status": "proved", "theorems": ["OB.C81_messages", "OB.C81_typed", "OB.C81_field_order", "OB.C81_strict_execute", "OB.C81_strict_sudo", "OB.C81_strict_query"], "note": "statement: lean/Verif/Props/Json.lean"},
{"property": "C82", "status": "proved", "theorems": ["OB.C82_values", "OB.C82_storage", "OB.C82_determined"], "note": "statement: lean/Verif/Props/Json.lean"},
{"property": "C83", "status": "proved", "theorems": ["OB.C83_answers", "OB.C83_refused", "OB.C83_maker_fee", "OB.C83_swap_data"], "note": "statement: lean/Verif/Props/Json.lean"},
{"property": "C84", "status": "proved", "theorems": ["OB.C84_decode", "OB.C84_names", "OB.C84_published"], "note": "statement: lean/Verif/Props/TextEvents.lean"},
{"property": "C85", "status": "proved", "theorems": ["OB.C85_lifetime"], "note": "statement: lean/Verif/Props/Life.lean"},
{"property": "C86", "status": "proved", "theorems": ["OB.C86_exchange"], "note": "statement: lean/Verif/Props/Exchange.lean"},
{"property": "C87", "status": "proved", "theorems": ["OB.C87_step", "OB.C87_history", "OB.C87_wound_down", "OB.C87_swap"], "note": "statement: lean/Verif/Props/Surplus.lean"},
{"property": "C88", "status": "proved", "theorems": ["OB.C88_formula", "OB.C88_decides", "OB.C88_no_jumping", "OB.C88_next_fill"], "note": "statement: lean/Verif/Props/Progress.lean"},
{"property": "C89", "status": "proved", "theorems": ["OB.C89_place", "OB.C89_claim", "OB.C89_batch", "OB.C89_cancel", "OB.C89_swap", "OB.C89_not_nothing", "OB.C89_admin", "OB.C89_governance", "OB.C89_none", "OB.C89_admin_something"], "note": "statement: lean/Verif/Props/Cost.lean, lean/Verif/Props/CostAdmin.lean"},
{"property": "C90", "status": "proved", "theorems": ["OB.C90_grammar", "OB.C90_messages"], "note": "statement: lean/Verif/Props/Wire.lean"},
{"property": "C91", "status": "proved", "theorems": ["OB.C91_storage", "OB.C91_answers", "OB.C91_swap_data"], "note": "statement: lean/Verif/Props/Wire.lean"},
{"property": "C92", "status": "proved", "theorems": ["OB.C92_place", "OB.C92_cancel", "OB.C92_claim", "OB.C92_batch", "OB.C92_swap", "OB.C92_config", "OB.C92_gov", "OB.C92_instantiate", "OB.C92_kinds"], "note": "statement: lean/Verif/Props/Says.lean"},
{"property": "C93", "status": "proved", "theorems": ["OB.C93_nodes", "OB.C93_records", "OB.C93_bound", "OB.C93_bytes"], "note": "statement: lean/Verif/Props/Size.lean"},
{"property": "C94", "status": "proved", "theorems": ["OB.C94_upper", "OB.C94_lower", "OB.C94_forever", "OB.C94_litter"], "note": "statement: lean/Verif/Props/Scan.lean"},
{"property": "C95", "status": "proved", "theorems": ["OB.C95_swap", "OB.C95_no_money_machine"], "note": "statement: lean/Verif/Props/Worth.lean"},
{"property": "C96", "status": "proved", "theorems": ["OB.C96_no_exploit", "OB.C96_passive", "OB.C96_cash"], "note": "statement: lean/Verif/Props/Exploit.lean"},
{"property": "C97", "status": "proved", "theorems": ["OB.C97_makers_keep", "OB.C97_cash"], "note": "statement: lean/Verif/Props/Harm.lean"},
{"property": "C98", "status": "proved", "theorems": ["OB.C98_leave_alone", "OB.C98_owned_exist", "OB.C98_money_back"], "note": "statement: lean/Verif/Props/Leave.lean"},
{"property": "C99", "status": "proved", "theorems": ["OB.C99_linearizable", "OB.C99_no_new_worlds", "OB.C99_bundle", "OB.C99_uninterrupted"], "note": "statement: lean/Verif/Props/Reenter.lean"},
{"property": "C100", "status": "proved", "theorems": ["OB.C100_refused", "OB.C100_depth", "OB.C100_says"], "note": "statement: lean/Verif/Props/QuerySays.lean"},
{"property": "C101", "status": "proved", "theorems": ["OB.C101_wire", "OB.C101_instantiate", "OB.C101_not_instantiated", "OB.C101_unique"], "note": "statement: lean/Verif/Props/Live.lean"},
{"property": "C102", "status": "proved", "theorems": ["OB.C102_queries", "OB.C102_future", "OB.C102_hidden"], "note": "statement: lean/Verif/Props/Snapshot.lean"},
{"property": "C103", "status": "proved", "theorems": ["OB.C103_liquidity", "OB.C103_worse", "OB.C103_exact", "OB.C103_slack_needed", "OB.C103_quotes"], "note": "statement: lean/Verif/Props/Wane.lean, lean/Verif/Props/WaneQuote.lean"},
{"property": "C104", "status": "proved", "theorems": ["OB.C104_ticks", "OB.C104_pointers", "OB.C104_balances", "OB.C104_cleared", "OB.C104_unfilled"], "note": "statement: lean/Verif/Props/E2e.lean"},
{"property": "C105", "status": "proved", "theorems": ["OB.C105_utf8", "OB.C105_messages", "OB.C105_wire", "OB.C105_unique", "OB.C105_instantiate", "OB.C105_storage", "OB.C105_values", "OB.C105_transaction", "OB.C105_determined", "OB.C105_iteration"], "note": "statement: lean/Verif/Props/Octets.lean"},
{"property": "C106", "status": "proved", "theorems": ["OB.C106_errors", "OB.C106_refused", "OB.C106_accepted", "OB.C106_larger", "OB.C106_everything", "OB.C106_max_market", "OB.C106_quote"], "note": "statement: lean/Verif/Props/Capacity.lean"},
{"property": "C107", "status": "proved", "theorems": ["OB.C107_administration"], "note": "statement: lean/Verif/Props/Fee.lean"},
{"property": "C108", "status": "proved", "theorems": ["OB.C108_ids", "OB.C108_no_trace", "OB.C108_placements", "OB.C108_pointer"], "note": "statement: lean/Verif/Props/Ids.lean"},
{"property": "C109", "status": "proved", "theorems": ["OB.C109_market", "OB.C109_cancel_needs_claim"], "note": "statement: lean/Verif/Props/Market.lean"},
{"property": "C110", "status": "proved", "theorems": ["OB.C110_pow_ten", "OB.C110_round", "OB.C110_ask", "OB.C110_bid", "OB.C110_zero"], "note": "statement: lean/Verif/Props/Functions.lean"},
{"property": "C111", "status": "proved", "theorems": ["OB.C111_subject", "OB.C111_ticks", "OB.C111_unrealized", "OB.C111_reachable"], "note": "statement: lean/Verif/Props/Reads.lean"}
]}
