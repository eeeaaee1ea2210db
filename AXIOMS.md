# Axioms

Axioms that the theorems of `MANIFEST.json` depend on, from `#print axioms`.

## none (15)

`C30_violated_pointer`, `C30_violated_window`, `C30_violated_wrap`, `C86_violated_connect`, `C86_violated_open`, `C86_violated_python`, `C90_violated_stamp`, `C93_violated_cast`, `C94_frame`, `C96_violated_late`, `C96_violated_none`, `C97_violated_product`, `Stats.C43_violated_empty`, `TraMgr.C50_violated_blocked`, `TraMgr.C50_violated_switch`

## propext (42)

`C101_status_partial`, `C101_violated_start`, `C101_violated_stop`, `C103_own_list`, `C23_clean_partial`, `C35_single`, `C78_lines`, `C82_early_word`, `C82_int`, `C82_operators_partial`, `C82_unary`, `C82_value`, `C82_violated_division`, `C82_violated_early`, `C82_violated_float`, `C82_violated_loop`, `C82_violated_none`, `C82_words`, `C86_catch`, `C86_timeout_partial`, `C89_race_partial`, `C93_violated_twice`, `C93_violated_zero`, `C96_depth`, `C96_packets`, `C98_echo`, `C99_fifo`, `C99_tcp_partial`, `C99_violated_passive`, `Conn.C40_read_once`, `Hub.C42_violated_restart`, `Hub.C55_violated_late`, `Hub.C55_violated_no_buffers`, `Hub.C56_violated_duplicate`, `Hub.C56_violated_twice`, `SigBus.C44_violated_for_good`, `SigBus.C44_violated_sigmask`, `SigBus.C44_violated_unblocked`, `Stats.C43_violated_mean`, `TraMgr.C50_violated_malformed_status`, `TraMgr.C50_violated_short`, `TraMgr.C50_violated_two_targets`

## propext, Classical.choice, Quot.sound (467)

`Allow.C53_enforced`, `Allow.C53_last`, `Allow.C53_partial`, `Allow.C53_permissive`, `Allow.C53_sound`, `Allow.C53_violated_blank`, `Allow.C53_violated_crash`, `Allow.C53_violated_ports`, `Allow.C53_violated_remark`, `Allow.C53_violated_tab`, `C01_cross_version`, `C01_decode_iff`, `C01_decode_refuses`, `C01_expected_v1_info`, `C01_injective`, `C01_layout`, `C01_roundtrip`, `C02_lowest_bit`, `C02_no_loss`, `C02_unique`, `C03_accept_iff`, `C03_accepted`, `C03_defined`, `C03_effect`, `C04_disjoint`, `C04_roundtrip`, `C05_block_write`, `C05_payload`, `C06_tiles`, `C07_current`, `C07_dispatched`, `C08_dispatch_empties`, `C08_program`, `C08_reachable`, `C09_distinct_partial`, `C09_epochs_partial`, `C09_ids_partial`, `C09_unique_partial`, `C100_report`, `C100_violated_none`, `C101_start_partial`, `C101_stop_partial`, `C101_violated_twice`, `C102_check_partial`, `C102_known`, `C102_violated_unused`, `C103_violated_failed`, `C103_violated_imported`, `C103_windows_partial`, `C10_min_length`, `C11_local`, `C11_no_ub`, `C11_ok_iff`, `C11_v1_echo`, `C11_verdict`, `C12_delivered_partial`, `C12_full`, `C12_paged_partial`, `C12_tcp_partial`, `C13_after_failure`, `C13_observable`, `C13_unobservable`, `C14_partial`, `C15_complete`, `C15_failed_packet`, `C15_paged_failed`, `C15_paged_valid_iff`, `C15_stays`, `C15_success`, `C15_tcp_failed`, `C15_tcp_valid_iff`, `C15_throws`, `C15_udp_failed`, `C15_udp_valid_iff`, `C15_valid_iff`, `C16_dummy`, `C16_paged`, `C16_paged_device`, `C16_paged_dummy`, `C16_refinement`, `C16_tcp`, `C16_udp`, `C17_clean`, `C17_fresh`, `C17_paged`, `C17_tcp`, `C17_udp`, `C18_finished_partial`, `C18_order_partial`, `C19_limit_partial`, `C20_complete_partial`, `C20_pending_partial`, `C20_stable_partial`, `C20_terminates_partial`, `C20_wakes_partial`, `C21_body`, `C21_finished_partial`, `C21_fits`, `C21_framing_partial`, `C21_order_partial`, `C22_complete_partial`, `C22_limit_partial`, `C22_pending_partial`, `C22_wakes_partial`, `C24_preamble`, `C25_wrong`, `C26_no_overwrite_partial`, `C26_order_partial`, `C26_reply_partial`, `C26_request_kept_partial`, `C26_served_partial`, `C27_progress_partial`, `C27_published_partial`, `C28_header`, `C28_header_mod`, `C29_exclusive`, `C29_one_session`, `C29_synchronised_partial`, `C31_mmap_partial`, `C31_pcie_partial`, `C32_complete`, `C32_inline`, `C32_sound_partial`, `C32_sum_partial`, `C32_violated_or`, `C33_built`, `C33_distinct`, `C33_list`, `C33_listed`, `C33_violated_built`, `C33_violated_dup`, `C34_inside_mask`, `C34_program`, `C34_read`, `C35_refused_partial`, `C36_report_partial`, `C36_violated_missing`, `C37_capacity`, `C37_node`, `C37_select`, `C37_top`, `C37_violated_length_error`, `C38_exact`, `C38_incorrect`, `C38_too_big`, `C41_assign_partial`, `C41_clone`, `C41_copy_of_copy`, `C41_lookup`, `C41_unique`, `C41_violated_assign`, `C45_defined`, `C46_reply_memory`, `C47_cache`, `C47_history`, `C48_ends_partial`, `C48_violated`, `C51_client`, `C51_end_partial`, `C51_reply`, `C51_request`, `C51_viaHub`, `C57_complete`, `C57_no_deadlock`, `C57_no_lost_update`, `C57_one`, `C57_paged_device`, `C57_progress`, `C57_refinement`, `C57_serial`, `C57_steps`, `C57_success_partial`, `C57_tcp`, `C57_udp`, `C58_matching_partial`, `C58_text_partial`, `C58_violated_copy`, `C58_violated_root`, `C58_violated_top`, `C59_copies`, `C59_partial`, `C59_possible`, `C59_violated_other`, `C59_violated_temporary`, `C60_paged_partial`, `C60_partial`, `C60_tcp_partial`, `C60_udp_partial`, `C61_accepts_partial`, `C61_content_partial`, `C61_covered`, `C61_nested_partial`, `C61_partial`, `C61_ranges`, `C61_slaves`, `C61_violated_names`, `C61_violated_nested`, `C61_violated_width`, `C61_violated_wrap`, `C62_alone_partial`, `C62_registers_partial`, `C62_shared_partial`, `C62_unseen_partial`, `C63_fifo`, `C63_once_partial`, `C63_right_reply`, `C64_partial`, `C64_violated_look`, `C64_violated_overflow`, `C69_device_partial`, `C69_found_partial`, `C69_hub13_partial`, `C69_hub_partial`, `C69_order`, `C69_paged_partial`, `C69_pcie_target_partial`, `C69_tcp_partial`, `C69_udp_partial`, `C69_unknown`, `C76_accepts_partial`, `C76_detects_partial`, `C76_dummy_partial`, `C76_verdict_partial`, `C76_violated_depth`, `C76_violated_exit`, `C76_violated_overflow`, `C76_violated_uri`, `C78_line`, `C78_name_partial`, `C78_quiet_partial`, `C78_read`, `C78_report_partial`, `C78_throws`, `C78_violated_name`, `C78_violated_throws`, `C80_common_partial`, `C80_sum_partial`, `C80_tickets_partial`, `C81_missing`, `C81_paged_partial`, `C81_red`, `C81_rows_partial`, `C81_tcp_partial`, `C81_udp_partial`, `C81_update_partial`, `C81_violated_device`, `C81_violated_path`, `C81_violated_red`, `C81_violated_root`, `C81_violated_title`, `C82_early_partial`, `C82_slice`, `C82_str`, `C83_common_partial`, `C83_replaced_partial`, `C83_sum_partial`, `C83_tickets_partial`, `C83_violated_lost`, `C84_cast`, `C84_classes_partial`, `C84_factory`, `C84_violated_ctor`, `C84_violated_message`, `C84_violated_twice`, `C84_violated_unknown`, `C85_name_partial`, `C85_read_partial`, `C85_violated_name`, `C88_apart`, `C88_fresh`, `C88_paged`, `C88_sent`, `C88_tcp_apart`, `C88_tcp_defined`, `C88_tcp_fresh`, `C88_tcp_sent`, `C88_tcp_values`, `C88_values`, `C90_address`, `C90_address_number`, `C90_client_lines`, `C90_device_lines`, `C90_hex_partial`, `C90_report_partial`, `C90_stamp_partial`, `C90_status_lines`, `C90_status_none`, `C90_status_reply`, `C90_status_some`, `C90_violated_exit`, `C90_violated_hex`, `C90_violated_since`, `C91_paged`, `C91_tcp`, `C91_udp`, `C92_line`, `C92_paged_partial`, `C92_tcp_partial`, `C92_udp_partial`, `C92_violated_block`, `C92_violated_module`, `C93_cast_partial`, `C93_tcp`, `C93_udp`, `C95_copy_partial`, `C95_violated_dot`, `C95_violated_same`, `C96_jumbo`, `C96_result_partial`, `C98_answers_partial`, `C98_violated_buffers`, `C98_violated_crash`, `C99_udp`, `Conn.C40_accepts`, `Conn.C40_defs`, `Conn.C40_first`, `Conn.C40_getDevice`, `Conn.C40_getDevices`, `Conn.C40_independent`, `Conn.C40_repeat`, `Conn.C40_separate`, `Conn.C40_throws`, `Conn.C40_twice`, `Conn.C40_violated_relative`, `Dummy.C71_hub_first_partial`, `Dummy.C71_hub_partial`, `Dummy.C71_tcp_partial`, `Dummy.C71_udp_partial`, `Dummy.C71_v13_partial`, `Files.C72_http_partial`, `Files.C72_list`, `Files.C72_local_partial`, `Files.C72_local_sound`, `Files.C72_other`, `Files.C72_sound`, `Files.C72_trim`, `Files.C72_violated_blank`, `Files.C72_violated_headers`, `Files.C72_violated_host`, `Files.C72_violated_local`, `Files.C72_violated_reason`, `Files.C72_violated_short`, `Files.C72_violated_status`, `Fmt.C65_bin`, `Fmt.C65_code_partial`, `Fmt.C65_dec`, `Fmt.C65_hex`, `Fmt.C65_read_back`, `Fmt.C65_violated_code`, `Hub.C42_gives_up`, `Hub.C42_next_partial`, `Hub.C42_no_crash_partial`, `Hub.C42_once_partial`, `Hub.C42_one_message`, `Hub.C42_recovery_partial`, `Hub.C42_reply_partial`, `Hub.C42_violated_age`, `Hub.C55_ended_partial`, `Hub.C55_errors`, `Hub.C55_gives_up`, `Hub.C55_no_error_partial`, `Hub.C55_once_partial`, `Hub.C55_one_answer`, `Hub.C55_reply_partial`, `Hub.C55_version`, `Hub.C56_order_partial`, `Hub.C56_partial`, `Hub13.C73_alone_partial`, `Hub13.C73_answers_partial`, `Hub13.C73_shared_partial`, `Hub13.C73_unseen_partial`, `HubApp.C68_active_partial`, `HubApp.C68_malformed`, `HubApp.C68_violated_active`, `HubApp.C68_violated_orphans`, `HubProc.C74_one_answer_partial`, `HubProc.C74_one_partial`, `HubProc.C74_two_partial`, `Insp.C70_dummy_partial`, `Insp.C70_host`, `Insp.C70_other`, `Insp.C70_program`, `Insp.C70_sound_partial`, `Insp.C70_target_partial`, `Insp.C70_violated_config`, `Log.C66_fixed`, `Log.C66_levels`, `Log.C66_order`, `Log.C66_progress`, `Log.C66_violated_torn`, `Log.C66_whole`, `Make.C67_hub_partial`, `Make.C67_memory_partial`, `Make.C67_message`, `Make.C67_mmap_partial`, `Make.C67_numeric_target`, `Make.C67_paged_reported`, `Make.C67_pcie_partial`, `Make.C67_protocol`, `Make.C67_tcp_partial`, `Make.C67_text_partial`, `Make.C67_udp_partial`, `Make.C67_violated_ignored`, `Make.C67_violated_negative`, `Make.C67_violated_terminate`, `Make.C67_violated_terminate_text`, `Make.C67_violated_zero`, `NodeAttr.C54_fwinfo_exact`, `NodeAttr.C54_included`, `NodeAttr.C54_parameters_exact`, `NodeAttr.C54_parameters_partial`, `NodeAttr.C54_refused`, `NodeAttr.C54_tree`, `NodeAttr.C54_violated_fwinfo`, `NodeAttr.C54_violated_parameters`, `Os.C79_head_partial`, `Os.C79_nodes_partial`, `Os.C79_packet_partial`, `Os.C79_packet_pieces`, `Os.C79_packet_read`, `Os.C79_packet_restores`, `Os.C79_undefined`, `Os.C79_violated_fill`, `Os.C79_violated_hex`, `Os.C79_violated_left`, `Os.C79_violated_nodes`, `Os.C79_violated_packet`, `Os.C79_violated_packet_left`, `PcieDummy.C75_program`, `PcieDummy.C75_progress_partial`, `PcieDummy.C75_replies_partial`, `Registry.C52_answered`, `Registry.C52_blocked`, `Registry.C52_current`, `Registry.C52_one_per_target`, `Registry.C52_right_target`, `Registry.C52_settled`, `Robust.C87_atomic`, `Robust.C87_exclusion`, `Robust.C87_most_recent`, `Robust.C87_number`, `Robust.C87_progress`, `SigBus.C44_protected_partial`, `SigBus.C44_restored_partial`, `Stats.C43_mean_partial`, `Stats.C43_partial`, `Stats.C43_violated_clear`, `TgtTest.C77_accepts_partial`, `TgtTest.C77_detects`, `TgtTest.C77_ends_partial`, `TgtTest.C77_rejects`, `TgtTest.C77_violated_dummy`, `TgtTest.C77_violated_none`, `TgtTest.C77_violated_size`, `TraMgr.C50_answers_partial`, `TraMgr.C50_complete_partial`, `Uri.C39_built_in_partial`, `Uri.C39_client_partial`, `Uri.C39_registered`, `Uri.C39_reparse`, `Uri.C39_roundtrip_partial`, `Uri.C39_violated_empty`, `Uri.C39_violated_path`, `Uri.C49_partial`, `Uri.C49_violated_blank`, `Uri.C49_violated_ends`, `Uri.C49_violated_merged`

## propext, Quot.sound (149)

`C01_encode_refuses_iff`, `C02_top_bit_mask`, `C02_zero_mask`, `C03_rejected`, `C07_v1_reply_can_exceed`, `C09_gap`, `C100_status_partial`, `C100_violated_interrupt`, `C100_violated_start`, `C101_ask`, `C101_violated_general`, `C102_ends`, `C102_violated_circle`, `C103_violated_shared`, `C11_tight_capacity`, `C12_short_reply_accepted`, `C12_tcp_junk`, `C13_forged`, `C13_resized_too_early`, `C14_violated_assign`, `C14_violated_clear`, `C14_violated_flag`, `C14_violated_mask`, `C17_violated_paged`, `C18_violated_null`, `C18_violated_stale`, `C19_violated`, `C20_violated_stale`, `C22_violated_limit`, `C22_violated_stall`, `C23_violated`, `C23_violated_read`, `C23_violated_spurious`, `C23_violated_two_reads`, `C26_violated_clip`, `C27_violated_interrupt`, `C27_violated_stale`, `C29_violated_crash`, `C29_violated_race`, `C30_page_partial`, `C30_pointer_partial`, `C30_violated_neighbour`, `C30_violated_word`, `C30_window_partial`, `C31_violated_mmap`, `C33_found`, `C33_has`, `C33_lookup`, `C34_denied`, `C34_permitted`, `C34_violated_block`, `C34_violated_block_read`, `C34_write`, `C35_inside_partial`, `C35_served`, `C35_violated_one`, `C35_violated_wrap`, `C36_violated_spurious`, `C37_allNames`, `C37_builder_parsers`, `C51_verdict`, `C57_order`, `C57_violated_lost`, `C63_violated_duplicate`, `C63_violated_reorder`, `C64_append_iff`, `C82_early_item`, `C82_item_partial`, `C82_loop_buffer_partial`, `C82_loop_partial`, `C82_violated_index`, `C83_own`, `C84_copy`, `C85_lock_partial`, `C85_memory_partial`, `C85_page_partial`, `C85_violated_lock`, `C85_violated_wrap`, `C85_write`, `C86_all`, `C86_dispatch_partial`, `C86_fallback`, `C86_handlers_partial`, `C86_nearest`, `C86_python`, `C86_rethrown`, `C86_validate_partial`, `C86_violated_slice`, `C88_dropped`, `C88_paged_dropped`, `C88_tcp_dropped`, `C89_clean_partial`, `C89_tcp_clean_partial`, `C89_tcp_partial`, `C89_udp_partial`, `C89_violated_busy`, `C89_violated_race`, `C91_violated_broken`, `C93_tcp_ends`, `C93_udp_ends`, `C94_both`, `C94_pramrx_partial`, `C94_pramtx`, `C94_tx`, `C94_violated_address`, `C94_violated_contents`, `C96_all`, `C96_tx`, `C97_read_partial`, `C97_violated_endless`, `C97_write_partial`, `C98_violated_shutdown`, `C99_delay`, `C99_drain`, `C99_violated_start`, `Dummy.C71_violated_config`, `Dummy.C71_violated_first`, `Dummy.C71_violated_stale`, `Dummy.C71_violated_tcp`, `Dummy.C71_violated_zero`, `Files.C72_read`, `Hub.C55_violated_first`, `Hub13.C73_violated_duplicate`, `HubApp.C68_acceptor`, `HubApp.C68_active`, `HubApp.C68_connections`, `HubApp.C68_listed`, `HubApp.C68_orphans`, `HubApp.C68_packets`, `HubApp.C68_peak`, `HubApp.C68_report`, `HubApp.C68_totals`, `HubProc.C74_goes_on`, `HubProc.C74_never_stuck`, `HubProc.C74_refines`, `HubProc.C74_violated_idle`, `HubProc.C74_violated_send`, `Insp.C70_ends`, `Insp.C70_violated_header`, `Insp.C70_violated_lenient`, `Insp.C70_violated_short`, `Os.C79_stamp_read`, `PcieDummy.C75_violated_config`, `PcieDummy.C75_violated_id`, `PcieDummy.C75_violated_reply`, `Registry.C52_violated_dead`, `Stats.C43_violated_init`, `TraMgr.C50_grouping`, `TraMgr.C50_violated_stuck`
