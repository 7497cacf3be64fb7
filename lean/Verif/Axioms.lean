import Verif.Props.Alias
import Verif.Props.Apply
import Verif.Props.ApplyDiff
import Verif.Props.Attempts
import Verif.Props.Balancer
import Verif.Props.Bits
import Verif.Props.BytesList
import Verif.Props.Cas
import Verif.Props.Chain
import Verif.Props.CliSend
import Verif.Props.ClientConn
import Verif.Props.ClientStream
import Verif.Props.Comments
import Verif.Props.Compile
import Verif.Props.CompileOk
import Verif.Props.Compress
import Verif.Props.Conc
import Verif.Props.Credentials
import Verif.Props.Deadline
import Verif.Props.Descr
import Verif.Props.Diff
import Verif.Props.ErrCode
import Verif.Props.Externals
import Verif.Props.Fetch
import Verif.Props.Framing
import Verif.Props.GenGo
import Verif.Props.GenImports
import Verif.Props.GenMap
import Verif.Props.Get
import Verif.Props.GetOk
import Verif.Props.Header
import Verif.Props.Health
import Verif.Props.Hedge
import Verif.Props.Hostile
import Verif.Props.HttpClient
import Verif.Props.HttpServer
import Verif.Props.Idl
import Verif.Props.IdlTypes
import Verif.Props.ImportBlock
import Verif.Props.Init
import Verif.Props.IsSet
import Verif.Props.Iter
import Verif.Props.Json
import Verif.Props.JsonBack
import Verif.Props.JsonBytes
import Verif.Props.JsonStr
import Verif.Props.KeepAlive
import Verif.Props.Large
import Verif.Props.LargeLists
import Verif.Props.Limits
import Verif.Props.Link
import Verif.Props.ListCache
import Verif.Props.Listener
import Verif.Props.Lists
import Verif.Props.Locate
import Verif.Props.Look
import Verif.Props.MapAny
import Verif.Props.MapCache
import Verif.Props.Maps
import Verif.Props.Metadata
import Verif.Props.MetadataArgs
import Verif.Props.ModFile
import Verif.Props.ModRefuse
import Verif.Props.ModWrite
import Verif.Props.Opening
import Verif.Props.Options
import Verif.Props.Otel
import Verif.Props.Pack
import Verif.Props.Packing
import Verif.Props.Patch
import Verif.Props.PatchRefuse
import Verif.Props.Pool
import Verif.Props.Prepare
import Verif.Props.RawConv
import Verif.Props.Recycle
import Verif.Props.Reflect
import Verif.Props.ReflectItems
import Verif.Props.ReflectList
import Verif.Props.ReflectMore
import Verif.Props.Registry
import Verif.Props.Release
import Verif.Props.Replay
import Verif.Props.Resolve
import Verif.Props.Resolver
import Verif.Props.Retry
import Verif.Props.RpcList
import Verif.Props.RpcReflect
import Verif.Props.Server
import Verif.Props.ServerCancel
import Verif.Props.ServerConn
import Verif.Props.ServerFrames
import Verif.Props.ServerLimits
import Verif.Props.ServiceConfig
import Verif.Props.SrvStream
import Verif.Props.Struct
import Verif.Props.StructList
import Verif.Props.SyncClient
import Verif.Props.Text
import Verif.Props.TextForm
import Verif.Props.Token
import Verif.Props.Transport
import Verif.Props.Validate
import Verif.Props.Vcs
import Verif.Props.Vendor
import Verif.Props.VendorDir
import Verif.Props.Writer

/-! Axioms used by every property theorem (generated by tools/manifest.py). -/

#print axioms Claw.C01_header_roundtrip
#print axioms Claw.C01_header_refuses
#print axioms Claw.C01_header_bijective
#print axioms Claw.C01_header_update
#print axioms Claw.C02_map_header_roundtrip
#print axioms Claw.C02_map_header_refuses
#print axioms Claw.C02_any_header_roundtrip
#print axioms Claw.C03_four_gib_field_is_lost
#print axioms Claw.C03_struct_is_record_partial
#print axioms Claw.C03_get_returns_last_set_partial
#print axioms Claw.C03_zero_is_zero
#print axioms Claw.C03_minus_zero_is_lost
#print axioms Claw.C03_out_of_schema_panics
#print axioms Claw.C04_four_gib_field_is_lost
#print axioms Claw.C04_marshal_unmarshal_partial
#print axioms Claw.C05_four_gib_not_canonical
#print axioms Claw.C05_canonical_partial
#print axioms Claw.C05_sparse_sorted_partial
#print axioms Claw.C06_size
#print axioms Claw.C06_number_list_unaligned
#print axioms Claw.C06_alignment_partial
#print axioms Claw.C07_schema_evolution_partial
#print axioms Claw.C07_forwarding_keeps_unknown_fields_partial
#print axioms Claw.C08_hangs
#print axioms Claw.C08_panics
#print axioms Claw.C08_reads_beyond_message
#print axioms Claw.C08_unmarshal_accepts
#print axioms Claw.C08_hangs_exactly
#print axioms Claw.C08_sane_bytes_decode_partial
#print axioms Claw.C08_narrow_getters_return_partial
#print axioms Claw.C09_four_gib_list_is_lost
#print axioms Claw.C09_bool_list_round_trip_partial
#print axioms Claw.C09_layout
#print axioms Claw.C10_four_gib_list_is_lost
#print axioms Claw.C10_number_list_round_trip_partial
#print axioms Claw.C10_list_is_slice
#print axioms Claw.C10_decoded_list
#print axioms Claw.C11_padding_becomes_an_item
#print axioms Claw.C11_exact
#print axioms Claw.C11_round_trip_partial
#print axioms Claw.C12_struct_list_round_trip_partial
#print axioms Claw.C13_map_refines
#print axioms Claw.C13_get_after_set
#print axioms Claw.C14_exact
#print axioms Claw.C14_padding_becomes_entries
#print axioms Claw.C14_round_trip_partial
#print axioms Claw.C14_wide_maps
#print axioms Claw.C14_too_large_panics
#print axioms Claw.C15_any_round_trip_partial
#print axioms Claw.C15_pending_list_edit_is_lost
#print axioms Claw.C16_list_any_round_trip_partial
#print axioms Claw.C16_raw_item_without_data
#print axioms Claw.C16_raw_refused
#print axioms Claw.C16_raw_list_refused
#print axioms Claw.C16_raw_accepted
#print axioms Claw.C17_bits_exact
#print axioms Claw.C17_bits_faithful_partial
#print axioms Claw.C17_cleared_still_marked
#print axioms Claw.C17_list_not_marked
#print axioms Claw.C17_zero_not_marked
#print axioms Claw.C17_second_marshal_untracked
#print axioms Claw.C17_harmless_partial
#print axioms Claw.C17_freezes
#print axioms Claw.C17_large_schema_phantom
#print axioms Claw.C18_exact
#print axioms Claw.C18_edit_after_marshal_lost
#print axioms Claw.C18_edit_of_decoded_lost
#print axioms Claw.C18_edits_reach_message_partial
#print axioms Claw.C19_not_larger_partial
#print axioms Claw.C19_last_field_partial
#print axioms Claw.C19_same_size_partial
#print axioms Claw.C19_growth_corrupts
#print axioms Claw.C19_shrink_misread
#print axioms Claw.C19_growth_not_seen
#print axioms Claw.C20_unmarshal_keeps_stale_fields
#print axioms Claw.C20_unmarshal_replaces_partial
#print axioms Claw.C21_apply_diff_partial
#print axioms Claw.C21_diff_then_apply_partial
#print axioms Claw.C21_struct_growth_corrupts
#print axioms Claw.C21_struct_item_lost
#print axioms Claw.C21_patch_too_large
#print axioms Claw.C22_empty_iff_equal
#print axioms Claw.C22_equal_gives_empty_partial
#print axioms Claw.C22_unchanged_partial
#print axioms Claw.C22_nil_bytes_list
#print axioms Claw.C22_nil_bytes_list_panics
#print axioms Claw.C22_unsupported
#print axioms Claw.C23_too_many_ops
#print axioms Claw.C23_within_limit
#print axioms Claw.C23_too_deep
#print axioms Claw.C23_deep_patch_rejected
#print axioms Claw.C23_limit_exact
#print axioms Claw.C23_depth_noticed_late
#print axioms Claw.C23_inner_ops_unlimited
#print axioms Claw.C24_list_edits_partial
#print axioms Claw.C24_struct_list_set
#print axioms Claw.C24_struct_list_range
#print axioms Claw.C24_struct_insert_duplicates
#print axioms Claw.C24_struct_remove_duplicates
#print axioms Claw.C24_struct_remove_last
#print axioms Claw.C24_struct_patch_negative_panics
#print axioms Claw.C24_set_not_written
#print axioms Claw.C24_unwritten_numbers_ignored
#print axioms Claw.C25_pack_round_trip
#print axioms Claw.C25_pack_rejects
#print axioms Claw.C26_pack_fits
#print axioms Claw.C26_bound_reached
#print axioms Claw.C27_panics
#print axioms Claw.C27_unpack_partial
#print axioms Claw.Retry.C28_retry_partial
#print axioms Claw.Retry.C28_bounded_calls
#print axioms Claw.Retry.C28_one_call_too_many
#print axioms Claw.Retry.C28_backoff_capped
#print axioms Claw.Retry.C28_default_classification
#print axioms Claw.Retry.C28_code_is_not_consulted
#print axioms Claw.Hedge.C29_bounded_attempts
#print axioms Claw.Hedge.C29_success_is_first
#print axioms Claw.Hedge.C29_error_only_when
#print axioms Claw.Hedge.C29_success_if_any
#print axioms Claw.Hedge.C29_no_deadlock
#print axioms Claw.Hedge.C29_no_leak
#print axioms Claw.Hedge.C29_no_hedge_afterwards
#print axioms Claw.Hedge.C29_returns_at_once
#print axioms Claw.Hedge.C29_fatal_classification
#print axioms Claw.Metadata.C30_contexts_are_values
#print axioms Claw.Metadata.C30_append_keeps_parent
#print axioms Claw.Metadata.C30_isolation
#print axioms Claw.Metadata.C30_case_insensitive
#print axioms Claw.Metadata.C30_wire_round_trip
#print axioms Claw.Metadata.C30_append_after_nil_metadata_panics
#print axioms Claw.ServiceConfig.C31_most_specific_partial
#print axioms Claw.ServiceConfig.C31_slash_confuses
#print axioms Claw.ServiceConfig.C31_setting_keeps_other
#print axioms Claw.ServiceConfig.C31_parse_pattern
#print axioms Claw.ServiceConfig.C31_apply
#print axioms Claw.Resolver.C32_parse_exact
#print axioms Claw.Resolver.C32_round_trip
#print axioms Claw.Resolver.C32_malformed_rejected
#print axioms Claw.Balancer.C33_picks_a_candidate
#print axioms Claw.Balancer.C33_round_robin_fair_partial
#print axioms Claw.Balancer.C33_unfair_across_the_wrap
#print axioms Claw.Balancer.C33_weighted_fair_partial
#print axioms Claw.Balancer.C33_weight_is_the_share
#print axioms Claw.Balancer.C33_priority_fair_partial
#print axioms Claw.Registry.C34_first_registration_wins_partial
#print axioms Claw.Registry.C34_register_is_safe
#print axioms Claw.Registry.C34_slash_collision
#print axioms Claw.Registry.C34_listing
#print axioms Claw.Chain.C35_nested_in_order
#print axioms Claw.Chain.C35_order_observed
#print axioms Claw.Chain.C35_short_circuit
#print axioms Claw.Chain.C35_client_stream_interceptors_ignored
#print axioms Claw.ErrCode.C36_code_exact
#print axioms Claw.ErrCode.C36_code_is_category_partial
#print axioms Claw.ErrCode.C36_code_none_iff
#print axioms Claw.ErrCode.C36_success_is_none
#print axioms Claw.ErrCode.C36_sync_outcomes
#print axioms Claw.ErrCode.C36_sync_call_may_panic
#print axioms Claw.ErrCode.C36_stream_outcomes
#print axioms Claw.ErrCode.C36_stream_error_may_be_lost
#print axioms Claw.ErrCode.C36_stream_error_reported
#print axioms Claw.ErrCode.C36_unknown_category_looks_like_success
#print axioms Claw.SrvConn.C37_no_panic
#print axioms Claw.SrvConn.C37_closed_is_final
#print axioms Claw.SrvConn.C38_ids_unique_partial
#print axioms Claw.SrvConn.C38_ids_wrap
#print axioms Claw.SrvConn.C39_no_new_sessions
#print axioms Claw.SrvConn.C39_success_means_done_partial
#print axioms Claw.SrvConn.C39_returns_early
#print axioms Claw.Srv.C40_limit
#print axioms Claw.Srv.C40_accepts_below
#print axioms Claw.SyncCli.C41_reply_is_ours
#print axioms Claw.SyncCli.C41_no_duplicates
#print axioms Claw.SyncCli.C41_only_one_owner_partial
#print axioms Claw.SyncCli.C41_reply_not_lost_partial
#print axioms Claw.SyncCli.C41_ids_wrap
#print axioms Claw.Frame.C42_packed_read_as_plain_fails
#print axioms Claw.Frame.C42_packed_read_as_empty
#print axioms Claw.Frame.C42_plain_read_as_packed_fails
#print axioms Claw.Packing.C42_second_open_lost
#print axioms Claw.Packing.C42_concurrent_opens_lost
#print axioms Claw.Packing.C42_ping_lost
#print axioms Claw.Packing.C42_goaway_lost
#print axioms Claw.Packing.C42_timeout_lost
#print axioms Claw.Packing.C42_open_lost
#print axioms Claw.Packing.C42_plain_partial
#print axioms Claw.Packing.C42_single_session_partial
#print axioms Claw.Pool.C43_unusable_without_health_checks
#print axioms Claw.Pool.C43_no_lost_wakeup
#print axioms Claw.Pool.C43_close_twice_panics
#print axioms Claw.Pool.C43_no_panic_partial
#print axioms Claw.Pool.C43_no_call_after_close
#print axioms Claw.Pool.C43_chosen_was_serving_partial
#print axioms Claw.Pool.C43_new_call_refused
#print axioms Claw.Pool.C43_late_report_closes_new
#print axioms Claw.Pool.C43_connection_leaks
#print axioms Claw.Pool.C43_call_sent_after_close
#print axioms Claw.Pool.C43_call_on_unhealthy
#print axioms Claw.Pool.C43_all_closed_partial
#print axioms Claw.Compress.C44_round_trip
#print axioms Claw.Compress.C44_unknown_is_an_error_partial
#print axioms Claw.Compress.C44_empty_is_not_checked
#print axioms Claw.Compress.C44_never_passed_through
#print axioms Claw.Compress.C44_end_to_end
#print axioms Claw.Compress.C44_unknown_frames_are_dropped
#print axioms Claw.Compress.C44_empty_output_is_not_undone
#print axioms Claw.Compress.C44_last_registration_wins
#print axioms Claw.Credentials.C45_insecure_is_refused
#print axioms Claw.Credentials.C45_later_wins
#print axioms Claw.Credentials.C45_metadata_sent_partial
#print axioms Claw.Credentials.C45_case_variants_are_ambiguous
#print axioms Claw.Credentials.C45_token_leaks_through_the_callers_map
#print axioms Claw.Validate.C46_server_guards
#print axioms Claw.Validate.C46_client_guards_partial
#print axioms Claw.Validate.C46_client_skips_validators
#print axioms Claw.Validate.C46_stream_guards
#print axioms Claw.Validate.C46_stream_interceptor_panics
#print axioms Claw.Validate.C46_code_of_validation_errors
#print axioms Claw.Idl.C47_accepted_in_order
#print axioms Claw.Idl.C47_accepted_iff
#print axioms Claw.Idl.C47_dense_iff_partial
#print axioms Claw.Idl.C47_negative_accepted
#print axioms Claw.Idl.C48_distinct
#print axioms Claw.Idl.C48_accepted_iff
#print axioms Claw.Idl.C48_values_kept_partial
#print axioms Claw.Idl.C48_width_not_checked
#print axioms Claw.Idl.C48_wraps
#print axioms Claw.Idl.C48_renders_iff_dense_partial
#print axioms Claw.Idl.C48_gap_not_rendered
#print axioms Claw.C49_replay_partial
#print axioms Claw.C49_long_session_rejected
#print axioms Claw.C49_append_rejected
#print axioms Claw.C49_any_rejected
#print axioms Claw.C49_map_calls_skipped
#print axioms Claw.C49_struct_append_duplicates
#print axioms Claw.Cas.C50_never_lost
#print axioms Claw.Cas.C50_registered
#print axioms Claw.Cas.C50_get
#print axioms Claw.Cas.C50_retry_means_progress
#print axioms Claw.Bits.C51_mask
#print axioms Claw.Bits.C51_single_bits
#print axioms Claw.Bits.C51_clear_range_partial
#print axioms Claw.Bits.C51_clear_range_too_much
#print axioms Claw.Bits.C51_set_value_partial
#print axioms Claw.Bits.C51_set_value_spills
#print axioms Claw.Bits.C51_clear_bytes
#print axioms Claw.Health.C52_last_status
#print axioms Claw.Binary.C53_direct_round_trip
#print axioms Claw.Binary.C53_put_round_trip_partial
#print axioms Claw.Binary.C53_put_signed
#print axioms Claw.Binary.C53_put_buffer
#print axioms Claw.SrvConn.C54_payloads_in_order
#print axioms Claw.SrvConn.C55_frames_bracketed
#print axioms Claw.SrvConn.C56_all_told
#print axioms Claw.Srv.C57_limit_per_connection
#print axioms Claw.SrvConn.C57_handler_limit_partial
#print axioms Claw.SrvConn.C57_limit_stalls
#print axioms Claw.Srv.C58_no_new_connections
#print axioms Claw.Srv.C58_all_closed
#print axioms Claw.Srv.C58_handlers_done_partial
#print axioms Claw.Srv.C58_shutdown_leaves_handlers
#print axioms Claw.SrvConn.C59_cancel_ends_session
#print axioms Claw.SrvConn.C59_other_sessions_partial
#print axioms Claw.SyncCli.C60_closed_session_panics
#print axioms Claw.SyncCli.C60_no_panic_while_open_partial
#print axioms Claw.SrvConn.C61_slow_handler_blocks
#print axioms Claw.SrvConn.C61_room_goes_on_partial
#print axioms Claw.CliConn.C62_no_panic
#print axioms Claw.CliConn.C63_no_new_sessions
#print axioms Claw.CliConn.C63_success_means_done_partial
#print axioms Claw.CliConn.C63_nil_with_open_sessions
#print axioms Claw.CliConn.C63_waits_for_nothing
#print axioms Claw.CliConn.C64_truncated_without_error
#print axioms Claw.CliConn.C64_gap_without_error
#print axioms Claw.CliConn.C64_cancelled_without_error
#print axioms Claw.CliConn.C64_no_early_end_partial
#print axioms Claw.CliConn.C64_stream_complete_partial
#print axioms Claw.Pool.C65_lost_connection_stays
#print axioms Claw.Pool.C65_one_frame_after_connect
#print axioms Claw.Pool.C65_checks_fail_after_connect
#print axioms Claw.Pool.C65_healthy_server_dropped
#print axioms Claw.Frame.C66_messages_one_by_one
#print axioms Claw.Frame.C66_structs_one_by_one_partial
#print axioms Claw.Frame.C66_end_of_stream
#print axioms Claw.Frame.C66_cut_is_an_error_partial
#print axioms Claw.Frame.C66_cut_after_header_looks_like_the_end
#print axioms Claw.Frame.C66_pieces_do_not_matter
#print axioms Claw.Frame.C67_eight_bytes_ask_for_anything
#print axioms Claw.Frame.C67_sixteen_bytes_ask_for_anything
#print axioms Claw.Frame.C67_sixteen_bytes_panic
#print axioms Claw.Frame.C67_received_message_partial
#print axioms Claw.Recycle.C68_next_message_shows_through
#print axioms Claw.Recycle.C68_copies_are_exact_partial
#print axioms Claw.Recycle.C68_server_message_changes
#print axioms Claw.Recycle.C68_intact_until_reuse_partial
#print axioms Claw.Externals.C69_imported
#print axioms Claw.Externals.C69_not_imported
#print axioms Claw.Externals.C69_edge_dots
#print axioms Claw.Idl.C69_types_as_written_partial
#print axioms Claw.Idl.C69_identifiers
#print axioms Claw.Idl.C69_map_values_not_checked
#print axioms Claw.Idl.C69_malformed_types_accepted
#print axioms Claw.Idl.C70_distinct_names_partial
#print axioms Claw.Idl.C70_duplicate_fields_accepted
#print axioms Claw.Tok.C71_ingest_walk
#print axioms Claw.Tok.C71_walk_injective
#print axioms Claw.Tok.C72_other_declarations_partial
#print axioms Claw.Tok.C72_unknown_fields_ignored_partial
#print axioms Claw.Tok.C72_unknown_field_refused
#print axioms Claw.Tok.C72_unknown_any_list_refused
#print axioms Claw.Tok.C73_merged_partial
#print axioms Claw.Tok.C73_replaced_partial
#print axioms Claw.Tok.C73_map_entries_partial
#print axioms Claw.Tok.C73_lists_extended
#print axioms Claw.Tok.C73_nil_keeps
#print axioms Claw.Tok.C74_stops_partial
#print axioms Claw.Tok.C74_in_order_partial
#print axioms Claw.Tok.C74_called_again
#print axioms Claw.Json.C75_string_read_back
#print axioms Claw.Json.C75_utf8_unchanged
#print axioms Claw.Json.C75_injective
#print axioms Claw.Json.C76_marshal_json_partial
#print axioms Claw.Json.C76_struct_list_broken
#print axioms Claw.Json.C76_json_iff_partial
#print axioms Claw.Json.C76_array_partial
#print axioms Claw.Json.C77_result_partial
#print axioms Claw.Json.C77_unchanged_partial
#print axioms Claw.Json.C77_refused
#print axioms Claw.Json.C77_float64_lost
#print axioms Claw.Json.C77_float32_lost
#print axioms Claw.Json.C77_bytes_lost
#print axioms Claw.Json.C77_large_lost
#print axioms Claw.Json.C77_unnamed_enum_lost
#print axioms Claw.Json.C78_rest_ignored
#print axioms Claw.Json.C78_truncated_accepted
#print axioms Claw.Json.C78_string_for_number
#print axioms Claw.Json.C78_number_for_string
#print axioms Claw.Json.C78_number_wraps
#print axioms Claw.Json.C79_string_keys_partial
#print axioms Claw.Json.C79_number_keys_lost
#print axioms Claw.Json.C79_same_names
#print axioms Claw.Json.C80_bytes_decodable
#print axioms Claw.Json.C80_bytes_list_decodable
#print axioms Claw.Json.C80_any_decodable
#print axioms Claw.Json.C80_any_typed
#print axioms Claw.Json.C80_injective
#print axioms Claw.Text.C81_escape_partial
#print axioms Claw.Text.C81_unchanged_partial
#print axioms Claw.Text.C81_quote_space_lost
#print axioms Claw.Text.C82_result_partial
#print axioms Claw.Text.C82_unchanged_partial
#print axioms Claw.Text.C82_container_refused
#print axioms Claw.Text.C82_true_lost
#print axioms Claw.Text.C82_large_refused
#print axioms Claw.Text.C82_whole64_lost
#print axioms Claw.Text.C82_whole32_lost
#print axioms Claw.Text.C82_special_lost
#print axioms Claw.Text.C82_bytes_lost
#print axioms Claw.Text.C82_unnamed_enum_lost
#print axioms Claw.Text.C83_rest_ignored
#print axioms Claw.Text.C83_line_rest_ignored
#print axioms Claw.Text.C83_number_wraps
#print axioms Claw.Text.C83_number_for_string
#print axioms Claw.Text.C83_word_for_number
#print axioms Claw.Text.C83_string_for_number
#print axioms Claw.Text.C83_backquote_comma
#print axioms Claw.Text.C84_comments_partial
#print axioms Claw.Text.C84_after_comment_lost
#print axioms Claw.Text.C84_short_comment
#print axioms Claw.Text.C85_list_partial
#print axioms Claw.Text.C85_bool_list_partial
#print axioms Claw.Text.C85_string_list_partial
#print axioms Claw.Text.C85_list_refused
#print axioms Claw.Text.C85_struct_list_partial
#print axioms Claw.Text.C85_map_partial
#print axioms Claw.Text.C85_bool_map_partial
#print axioms Claw.Text.C85_string_map_partial
#print axioms Claw.Text.C85_map_refused
#print axioms Claw.Text.C85_true_lost
#print axioms Claw.Text.C85_bool_partial
#print axioms Claw.Text.C85_null_string
#print axioms Claw.Text.C85_null_refused
#print axioms Claw.Text.C85_hex_number_lost
#print axioms Claw.Text.C85_second_field_lost
#print axioms Claw.Text.C85_any_refused
#print axioms Claw.Text.C85_backquote_partial
#print axioms Claw.Text.C85_backquote_words_lost
#print axioms Claw.Mod.C86_read_partial
#print axioms Claw.Mod.C86_no_versions_no_lists
#print axioms Claw.Mod.C86_require_refused
#print axioms Claw.Mod.C86_list_refused
#print axioms Claw.Mod.C86_comment_refused
#print axioms Claw.Mod.C86_example_refused
#print axioms Claw.Mod.C86_extra_refused_partial
#print axioms Claw.Mod.C86_second_refused_partial
#print axioms Claw.Mod.C87_work_checked
#print axioms Claw.Mod.C87_work_further_refused
#print axioms Claw.Mod.C87_work_partial
#print axioms Claw.Mod.C87_module_partial
#print axioms Claw.Mod.C87_in_repo_iff
#print axioms Claw.Mod.C87_new_module_in_repo
#print axioms Claw.Mod.C87_hyphen_refused
#print axioms Claw.Mod.C88_refused_partial
#print axioms Claw.Mod.C88_never_replaced
#print axioms Claw.Mod.C88_panics
#print axioms Claw.Mod.C88_read_partial
#print axioms Claw.Mod.C89_read_back_partial
#print axioms Claw.Mod.C89_importable_refused
#print axioms Claw.Vendor.C90_graph
#print axioms Claw.Vendor.C90_error
#print axioms Claw.Vendor.C90_ends
#print axioms Claw.Vendor.C90_succeeds
#print axioms Claw.Vendor.C90_get_panics
#print axioms Claw.Vendor.C90_replaced
#print axioms Claw.Vendor.C91_each_once
#print axioms Claw.Vendor.C91_importers_first
#print axioms Claw.Vendor.C91_dependencies_never_first
#print axioms Claw.Vendor.C91_fails_iff
#print axioms Claw.Vendor.C91_collected
#print axioms Claw.Vendor.C92_check_iff_partial
#print axioms Claw.Vendor.C92_alike_let_in
#print axioms Claw.Vendor.C92_not_enforced
#print axioms Claw.Vendor.C92_lists_not_enforced
#print axioms Claw.Vendor.C92_private_refused_partial
#print axioms Claw.Vendor.C93_read
#print axioms Claw.Vendor.C93_read_fails_iff
#print axioms Claw.Vendor.C93_vendored
#print axioms Claw.Vendor.C93_vendored_cycles_accepted
#print axioms Claw.Vendor.C94_inside_partial
#print axioms Claw.Vendor.C94_outside_partial
#print axioms Claw.Vendor.C94_alike_confused
#print axioms Claw.Vendor.C95_tags_never
#print axioms Claw.Vendor.C95_version_taken_for_hash
#print axioms Claw.Vendor.C95_hash_partial
#print axioms Claw.Vendor.C95_v_panics
#print axioms Claw.Vendor.C95_spec_partial
#print axioms Claw.Refl.C96_set_partial
#print axioms Claw.Refl.C96_get_partial
#print axioms Claw.Refl.C96_set_get_partial
#print axioms Claw.Refl.C96_unset_nil
#print axioms Claw.Refl.C96_empty_panics
#print axioms Claw.Refl.C96_enum_partial
#print axioms Claw.Refl.C96_unnamed_panics
#print axioms Claw.Refl.C96_imported_panics
#print axioms Claw.Refl.C97_copy_partial
#print axioms Claw.Refl.C97_containers_refused
#print axioms Claw.Refl.C98_numbers_partial
#print axioms Claw.Refl.C98_structs_partial
#print axioms Claw.Refl.C98_strings_lost
#print axioms Claw.Refl.C98_bytes_empty
#print axioms Claw.Refl.C98_bools_padded
#print axioms Claw.Refl.C98_pending_unseen
#print axioms Claw.Refl.C99_clear_partial
#print axioms Claw.Refl.C99_others_kept
#print axioms Claw.Refl.C100_plain_partial
#print axioms Claw.Refl.C100_unsettable
#print axioms Claw.Refl.C100_panics
#print axioms Claw.Refl.C100_wrong_type
#print axioms Claw.Refl.C101_plain_partial
#print axioms Claw.Refl.C101_list_panics
#print axioms Claw.Refl.C101_unset_fails
#print axioms Claw.RpcReflect.C102_config
#print axioms Claw.RpcReflect.C102_tcp_partial
#print axioms Claw.RpcReflect.C102_token
#print axioms Claw.RpcReflect.C102_http_partial
#print axioms Claw.RpcReflect.C102_forwarded
#print axioms Claw.RpcReflect.C102_unread
#print axioms Claw.RpcReflect.C102_zone
#print axioms Claw.RpcReflect.C103_exact
#print axioms Claw.RpcReflect.C103_sorted
#print axioms Claw.RpcReflect.C103_deterministic
#print axioms Claw.RpcReflect.C103_service
#print axioms Claw.RpcReflect.C103_method
#print axioms Claw.RpcReflect.C103_registered
#print axioms Claw.RpcReflect.C103_found_partial
#print axioms Claw.RpcReflect.C103_slash
#print axioms Claw.Transport.C104_whole
#print axioms Claw.Transport.C104_exact
#print axioms Claw.Transport.C104_order
#print axioms Claw.Transport.C104_stable
#print axioms Claw.Transport.C104_buffer
#print axioms Claw.Transport.C105_ends
#print axioms Claw.Transport.C105_server
#print axioms Claw.Transport.C105_client_partial
#print axioms Claw.Transport.C105_deadlock
#print axioms Claw.Transport.C105_reconnect
#print axioms Claw.Transport.C105_blocked
#print axioms Claw.Transport.C106_closed_partial
#print axioms Claw.Transport.C106_server
#print axioms Claw.Transport.C106_after
#print axioms Claw.Transport.C106_leak
#print axioms Claw.Listener.C107_once
#print axioms Claw.Listener.C107_kept_partial
#print axioms Claw.Listener.C107_lost
#print axioms Claw.Listener.C107_order_partial
#print axioms Claw.Listener.C107_server_close
#print axioms Claw.Listener.C107_closed
#print axioms Claw.Listener.C107_unblocked
#print axioms Claw.Listener.C108_listen
#print axioms Claw.Listener.C108_foreign
#print axioms Claw.Listener.C108_mode_partial
#print axioms Claw.Listener.C108_window
#print axioms Claw.Listener.C108_alive_partial
#print axioms Claw.Listener.C108_close
#print axioms Claw.Listener.C108_steal
#print axioms Claw.Listener.C108_foreign_close
#print axioms Claw.Otel.C109_result
#print axioms Claw.Otel.C109_counted
#print axioms Claw.Otel.C109_code_partial
#print axioms Claw.Otel.C109_code_lost
#print axioms Claw.Otel.C109_chain
#print axioms Claw.Otel.C109_stream_code_lost
#print axioms Claw.Otel.C110_config
#print axioms Claw.Otel.C110_decision
#print axioms Claw.Otel.C110_ignored
#print axioms Claw.Otel.C110_sampled
#print axioms Claw.HttpClient.C111_released
#print axioms Claw.HttpClient.C111_calls
#print axioms Claw.HttpClient.C111_reconnect_ok
#print axioms Claw.HttpClient.C111_nil_body
#print axioms Claw.HttpClient.C112_pipe
#print axioms Claw.HttpClient.C112_stream_partial
#print axioms Claw.HttpClient.C112_up_partial
#print axioms Claw.HttpClient.C112_split
#print axioms Claw.HttpClient.C112_nil_write
#print axioms Claw.HttpClient.C112_killed
#print axioms Claw.HttpClient.C112_no_error
#print axioms Claw.HttpClient.C113_kept_partial
#print axioms Claw.HttpClient.C113_context_ends
#print axioms Claw.HttpClient.C113_always_given_up
#print axioms Claw.HttpClient.C113_connected_after_failure
#print axioms Claw.HttpClient.C113_old_error
#print axioms Claw.HttpClient.C113_no_timeout
#print axioms Claw.HttpServer.C114_served_iff
#print axioms Claw.HttpServer.C114_client_served
#print axioms Claw.HttpServer.C114_version
#print axioms Claw.HttpServer.C115_after_return
#print axioms Claw.HttpServer.C115_close_answer
#print axioms Claw.HttpServer.C115_stream
#print axioms Claw.HttpServer.C115_closed_calls
#print axioms Claw.HttpServer.C115_blocked
#print axioms Claw.Resolve.C116_addresses
#print axioms Claw.Resolve.C116_dialable
#print axioms Claw.Resolve.C116_authority
#print axioms Claw.Resolve.C116_no_srv
#print axioms Claw.Resolve.C116_bracketed
#print axioms Claw.Resolve.C116_empty_port
#print axioms Claw.Resolve.C117_only_its_addresses
#print axioms Claw.Resolve.C117_bare
#print axioms Claw.Resolve.C117_passthrough
#print axioms Claw.Resolve.C117_all_tried_partial
#print axioms Claw.Resolve.C117_one_try
#print axioms Claw.Resolve.C117_no_fallback
#print axioms Claw.HealthService.C118_check
#print axioms Claw.HealthService.C118_history
#print axioms Claw.SrvStream.C119_in_order
#print axioms Claw.SrvStream.C119_complete
#print axioms Claw.SrvStream.C119_drains
#print axioms Claw.SrvStream.C119_returns
#print axioms Claw.SrvStream.C119_stops
#print axioms Claw.SrvStream.C119_no_error
#print axioms Claw.SrvStream.C120_handed_on_partial
#print axioms Claw.SrvStream.C120_refused
#print axioms Claw.SrvStream.C120_own_stream_panics
#print axioms Claw.SrvStream.C120_context_of_stream
#print axioms Claw.SrvStream.C120_send_lost
#print axioms Claw.SrvStream.C120_send
#print axioms Claw.SrvStream.C121_merged
#print axioms Claw.SrvStream.C121_sent
#print axioms Claw.SrvStream.C121_lost
#print axioms Claw.SrvStream.C121_shared
#print axioms Claw.CliSend.C122_sent
#print axioms Claw.CliSend.C122_order
#print axioms Claw.CliSend.C122_closed
#print axioms Claw.CliSend.C122_once
#print axioms Claw.CliSend.C122_delivered
#print axioms Claw.CliSend.C122_after_failure
#print axioms Claw.CliSend.C122_nothing_else
#print axioms Claw.CliSend.C122_racing
#print axioms Claw.CliSend.C122_racing_close
#print axioms Claw.CliSend.C122_after_cancel
#print axioms Claw.CliSend.C122_after_end
#print axioms Claw.GenGo.C123_cycle_iff
#print axioms Claw.GenGo.C123_refs_partial
#print axioms Claw.GenGo.C123_methods_partial
#print axioms Claw.GenGo.C123_valid_partial
#print axioms Claw.GenGo.C123_careful_valid
#print axioms Claw.GenGo.C123_recursive_fails
#print axioms Claw.GenGo.C123_linked_list
#print axioms Claw.GenGo.C123_field_clash
#print axioms Claw.GenGo.C123_method_clash
#print axioms Claw.GenGo.C123_struct_clash
#print axioms Claw.GenGo.C123_package_clash
#print axioms Claw.GenGo.C123_int8_fails
#print axioms Claw.GenGo.C123_map_value_fails
#print axioms Claw.RawConv.C124_exact_partial
#print axioms Claw.RawConv.C124_round_trip_partial
#print axioms Claw.RawConv.C124_back_partial
#print axioms Claw.RawConv.C124_map_order
#print axioms Claw.RawConv.C124_nan_order
#print axioms Claw.RawConv.C124_any_lost
#print axioms Claw.RawConv.C124_any_bytes
#print axioms Claw.RawConv.C124_empty_lost
#print axioms Claw.RawConv.C124_zero_struct
#print axioms Claw.RawConv.C124_nil_items
#print axioms Claw.RawConv.C124_minus_zero
#print axioms Claw.Options.C125_read_back
#print axioms Claw.Options.C125_sound_partial
#print axioms Claw.Options.C125_file_iff
#print axioms Claw.Options.C125_junk_args
#print axioms Claw.Options.C125_junk_tail
#print axioms Claw.Options.C125_no_comma
#print axioms Claw.Options.C125_bracket
#print axioms Claw.Options.C125_not_exact
#print axioms Claw.Options.C126_valid_iff_partial
#print axioms Claw.Options.C126_negative
#print axioms Claw.Link.C127_names
#print axioms Claw.Link.C127_identity
#print axioms Claw.Link.C127_starts_iff
#print axioms Claw.Link.C127_found
#print axioms Claw.Link.C127_order
#print axioms Claw.Link.C127_vendored_twice
#print axioms Claw.Link.C127_vendored_and_direct
#print axioms Claw.Writer.C128_nothing_else
#print axioms Claw.Writer.C128_reported
#print axioms Claw.Writer.C128_written_partial
#print axioms Claw.Writer.C128_lost
#print axioms Claw.Writer.C128_skipped
#print axioms Claw.Writer.C128_misplaced
#print axioms Claw.Writer.C128_beside
#print axioms Claw.Writer.C128_test_file
#print axioms Claw.Writer.C128_ends
#print axioms Claw.GenImports.C129_main_iff
#print axioms Claw.GenImports.C129_iter_iff
#print axioms Claw.GenImports.C129_ingest_iff
#print axioms Claw.GenImports.C129_compiles_partial
#print axioms Claw.GenImports.C129_renamed
#print axioms Claw.GenImports.C129_fixed
#print axioms Claw.GenImports.C129_local
#print axioms Claw.GenImports.C129_keyword
#print axioms Claw.Import.C130_read_partial
#print axioms Claw.Import.C130_refused
#print axioms Claw.Import.C130_open
#print axioms Claw.Import.C130_found
#print axioms Claw.Import.C130_comment
#print axioms Claw.Import.C130_quotes
#print axioms Claw.Import.C130_unchecked
#print axioms Claw.Fetch.C131_commit_partial
#print axioms Claw.Fetch.C131_one
#print axioms Claw.Fetch.C131_latest
#print axioms Claw.Fetch.C131_pinned
#print axioms Claw.Fetch.C131_no_panic_partial
#print axioms Claw.Fetch.C131_short
#print axioms Claw.Fetch.C131_other
#print axioms Claw.Fetch.C131_tags
#print axioms Claw.Vcs.C132_version
#print axioms Claw.Vcs.C132_min_partial
#print axioms Claw.Vcs.C132_git3
#print axioms Claw.Vcs.C132_outside
#print axioms Claw.Vcs.C132_not_inside
#print axioms Claw.Vcs.C132_root_partial
#print axioms Claw.Vcs.C132_root_name
#print axioms Claw.Vcs.C132_worktree
#print axioms Claw.Vcs.C132_top
#print axioms Claw.Vcs.C132_origin_partial
#print axioms Claw.Vcs.C132_scp
#print axioms Claw.Vcs.C132_scp_host
#print axioms Claw.Vcs.C132_port
#print axioms Claw.Vcs.C132_no_remote
#print axioms Claw.Alive.C133_idle_only
#print axioms Claw.Alive.C133_why
#print axioms Claw.Alive.C133_alive
#print axioms Claw.Alive.C133_busy
#print axioms Claw.Alive.C133_dead_partial
#print axioms Claw.Alive.C133_blocked
#print axioms Claw.Alive.C133_data
#print axioms Claw.Alive.C133_reader
#print axioms Claw.Alive.C133_zero
#print axioms Claw.Init.C134_find_iff
#print axioms Claw.Init.C134_find_none
#print axioms Claw.Init.C134_find_bad
#print axioms Claw.Init.C134_keeps
#print axioms Claw.Init.C134_in_work
#print axioms Claw.Init.C134_in_git_partial
#print axioms Claw.Init.C134_overwrites
#print axioms Claw.Init.C134_shadowed
#print axioms Claw.Init.C134_worktree
#print axioms Claw.Init.C134_panics
#print axioms Claw.Init.C134_command
#print axioms Claw.Init.C134_commands
#print axioms Claw.Init.C134_outside
#print axioms Claw.GenMap.C135_iff_partial
#print axioms Claw.GenMap.C135_bytes
#print axioms Claw.GenMap.C135_nested
#print axioms Claw.GenMap.C135_imported
#print axioms Claw.GenMap.C135_types
#print axioms Claw.GenMap.C135_more_types
#print axioms Claw.GenMap.C135_where
#print axioms Claw.Comments.C136_comment
#print axioms Claw.Comments.C136_same
#print axioms Claw.Comments.C136_glued
#print axioms Claw.Comments.C136_empty
#print axioms Claw.Comments.C136_collect
#print axioms Claw.Comments.C136_field
#print axioms Claw.Comments.C136_enumerator
#print axioms Claw.Comments.C136_ignored
#print axioms Claw.Refl.C137_set
#print axioms Claw.Refl.C137_bounds
#print axioms Claw.Refl.C137_append_lost
#print axioms Claw.Refl.C137_refused
#print axioms Claw.Refl.C137_strings_take
#print axioms Claw.Refl.C137_structs_take
#print axioms Claw.Refl.C137_enums_refused
#print axioms Claw.Refl.C137_type
#print axioms Claw.Refl.C137_any
#print axioms Claw.VendorDir.C138_vendored_partial
#print axioms Claw.VendorDir.C138_order
#print axioms Claw.VendorDir.C138_outside
#print axioms Claw.VendorDir.C138_again
#print axioms Claw.VendorDir.C138_stale_mod
#print axioms Claw.VendorDir.C138_stale_package
#print axioms Claw.VendorDir.C138_claw_directory
#print axioms Claw.VendorDir.C138_version
#print axioms Claw.VendorDir.C138_file_name
#print axioms Claw.VendorDir.C138_escapes
#print axioms Claw.Descr.C139_structs
#print axioms Claw.Descr.C139_own
#print axioms Claw.Descr.C139_fields_partial
#print axioms Claw.Descr.C139_enums
#print axioms Claw.Descr.C139_imported
#print axioms Claw.Descr.C139_none
#print axioms Claw.Descr.C139_name_panics
#print axioms Claw.Descr.C139_not_told
#print axioms Claw.Compile.C140_places
#print axioms Claw.Compile.C140_outside_git
#print axioms Claw.Compile.C140_written_partial
#print axioms Claw.Compile.C140_replaced
#print axioms Claw.Compile.C140_beyond_work
#print axioms Claw.Compile.C140_go_get
#print axioms Claw.Compile.C140_no_module
#print axioms Claw.Compile.C140_guess_right
#print axioms Claw.Compile.C140_guess_short
#print axioms Claw.Compile.C140_guess_dotted
#print axioms Claw.Compile.C140_guessed
#print axioms Claw.Compile.Case.C140_replaced_fails
#print axioms Claw.Compile.Case.C140_beyond_work_fails
#print axioms Claw.Compile.Case.C140_go_get_fails
#print axioms Claw.Compile.Case.C140_no_module_fails
#print axioms Claw.Compile.Case.C140_short_fails
#print axioms Claw.Compile.Case.C140_dotted_fails
#print axioms Claw.Compile.Case.C140_outside_git_fails
#print axioms Claw.Compile.C140_succeeds
#print axioms Claw.Compile.C141_vendored
#print axioms Claw.Compile.C141_replaced
#print axioms Claw.Compile.C141_replaced_module
#print axioms Claw.Compile.C141_latest
#print axioms Claw.Compile.C141_version
#print axioms Claw.Compile.C141_copies
#print axioms Claw.Compile.C141_written_partial
#print axioms Claw.Compile.C141_compiled_partial
#print axioms Claw.Compile.C141_no_git_panics
#print axioms Claw.Compile.C141_forgotten
#print axioms Claw.Compile.C141_refused_ignored
#print axioms Claw.Compile.Case.C141_copies_fails
#print axioms Claw.Compile.Case.C141_forgotten_fails
#print axioms Claw.Compile.Case.C141_refused_ignored_fails
#print axioms Claw.Compile.C141_succeeds
#print axioms Claw.Release.C142_succeeds
#print axioms Claw.Release.C142_like_new_partial
#print axioms Claw.C142_message_lost
#print axioms Claw.C142_message_replaced
#print axioms Claw.C142_nested_release
#print axioms Claw.C142_writes_into_parent
#print axioms Claw.C142_made_in_parent
#print axioms Claw.C142_cut_message
#print axioms Claw.Deadline.C143_handler_deadline_partial
#print axioms Claw.Deadline.C143_short_deadline
#print axioms Claw.Deadline.C143_transport_added
#print axioms Claw.Deadline.C143_wire
#print axioms Claw.Deadline.C143_wire_overflow
#print axioms Claw.Deadline.C143_open
#print axioms Claw.Deadline.C143_shared_timeout
#print axioms Claw.Deadline.C143_call_returns_partial
#print axioms Claw.Deadline.C143_outcome
#print axioms Claw.Deadline.C143_stalled_write
#print axioms Claw.Deadline.C143_timeout_ignored
#print axioms Claw.Conc.C144_indexed
#print axioms Claw.Conc.C144_not_indexed_partial
#print axioms Claw.Conc.C144_field_missing
#print axioms Claw.Conc.C144_twice
#print axioms Claw.Conc.C144_lists_fatal
#print axioms Claw.Conc.C144_lists_differ
#print axioms Claw.Conc.C144_lists_kept_partial
#print axioms Claw.Limits.C145_refused
#print axioms Claw.Limits.C145_kept
#print axioms Claw.Limits.C145_answered_partial
#print axioms Claw.Limits.C145_request_dropped
#print axioms Claw.Limits.C145_request_no_error
#print axioms Claw.Limits.C145_reply_dropped
#print axioms Claw.Limits.C145_reply_no_error
#print axioms Claw.Limits.C145_reply_ends_session
#print axioms Claw.Limits.C145_stream
#print axioms Claw.Limits.C145_stream_whole
#print axioms Claw.Limits.C145_told_ignored
#print axioms Claw.C146_bytes_partial
#print axioms Claw.C146_nested_partial
#print axioms Claw.C146_later_bytes
#print axioms Claw.C146_later_nested
#print axioms Claw.C146_moved_bytes
#print axioms Claw.C146_edit_lost
#print axioms Claw.C146_bytes_change
#print axioms Claw.C146_nested_change
#print axioms Claw.C146_clear_changes
#print axioms Claw.C147_exact
#print axioms Claw.C147_put_panics
#print axioms Claw.C147_reach_partial
#print axioms Claw.C147_lost
#print axioms Claw.C147_decoded_edit_partial
#print axioms Claw.C147_decoded_grow_last
#print axioms Claw.C147_decoded_grow_first
#print axioms Claw.C147_decoded_same_size
#print axioms Claw.C147_decoded_clear
#print axioms Claw.C147_decoded_two_lists
#print axioms Claw.C147_item_header
#print axioms Claw.C148_exact
#print axioms Claw.C148_reach_partial
#print axioms Claw.C148_lost
#print axioms Claw.C148_read_disconnects
#print axioms Claw.C148_decoded_lost
#print axioms Claw.Opening.C149_reach_partial
#print axioms Claw.Opening.C149_reason_lost
#print axioms Claw.Opening.C149_stream_metadata_lost
#print axioms Claw.Opening.C149_versions_ignored
#print axioms Claw.Opening.C149_by_pointer
#print axioms Claw.Opening.C149_wrong_handler
#print axioms Claw.Opening.C149_wrap
#print axioms Claw.Attempts.C150_one_invocation
#print axioms Claw.Attempts.C150_retry_panics
#print axioms Claw.Attempts.C150_reply_not_given
#print axioms Claw.Attempts.C150_later_calls_panic
#print axioms Claw.Attempts.C150_success_partial
#print axioms Claw.Attempts.C150_first_final_partial
#print axioms Claw.Attempts.C150_hedge_no_gain
#print axioms Claw.Attempts.C150_hedge_delays
#print axioms Claw.Attempts.C150_hedge_invocations
#print axioms Claw.Attempts.C150_hedge_ends_session
#print axioms Claw.Attempts.C150_hedge_panics
#print axioms Claw.Attempts.C150_hedge_partial
#print axioms Claw.Prepare.C151_init
#print axioms Claw.Prepare.C151_init_again
#print axioms Claw.Prepare.C151_validate_partial
#print axioms Claw.Prepare.C151_validate_endless
#print axioms Claw.Prepare.C151_self_never_accepted
#print axioms Claw.Prepare.C151_any_value_accepted
#print axioms Claw.PatchRefuse.C152_set
#print axioms Claw.PatchRefuse.C152_refused_unchanged
#print axioms Claw.PatchRefuse.C152_no_items
#print axioms Claw.PatchRefuse.C152_set_structs
#print axioms Claw.PatchRefuse.C152_replace_no_list
#print axioms Claw.PatchRefuse.C152_short_item
#print axioms Claw.PatchRefuse.C152_empty_replace_clears
#print axioms Claw.PatchRefuse.C152_bools
#print axioms Claw.PatchRefuse.C152_trailing_ignored
#print axioms Claw.PatchRefuse.C152_unknown_skipped
#print axioms Claw.PatchRefuse.C152_ragged_replace
#print axioms Claw.MetadataArgs.C153_panics
#print axioms Claw.MetadataArgs.C153_pairs
#print axioms Claw.MetadataArgs.C153_set_shares
#print axioms Claw.Iter.C154_range
#print axioms Claw.Iter.C154_all
#print axioms Claw.Iter.C154_again
#print axioms Claw.Iter.C154_again_partial
#print axioms Claw.Iter.C154_growing_never_panics
#print axioms Claw.Iter.C154_used_iterator_is_short
#print axioms Claw.Iter.C154_shrinking_panics
#print axioms Claw.Iter.C154_append_forever
#print axioms Claw.BytesList.C155_values_partial
#print axioms Claw.BytesList.C155_sync_partial
#print axioms Claw.BytesList.C155_append_shares
#print axioms Claw.BytesList.C155_get_write_lost
